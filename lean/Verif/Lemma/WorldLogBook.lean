import Verif.Lemma.WorldLogLink
import Verif.Lemma.WorldInput
import Verif.Spec.LogBook

/-
What gets into the log of a console: helper lemmas for C92.
-/
namespace Conman
open Spec

theorem logOuts_append (a b : List LogEv) : logOuts (a ++ b) = logOuts a ++ logOuts b := List.flatMap_append

theorem NotesOk.append {env : Env} {a b : List LogEv} (ha : NotesOk env a) (hb : NotesOk env b) : NotesOk env (a ++ b) := by
  intro t ht
  rcases List.mem_append.1 ht with h | h
  · exact ha t h
  · exact hb t h

theorem logBook_append (o : LogOpts) (clk : Nat → List UInt8) (a b : List LogEv) : ∀ st k st1 k1 t1 st2 k2 t2,
    logBook o clk st k a = some (st1, k1, t1) → logBook o clk st1 k1 b = some (st2, k2, t2) →
    logBook o clk st k (a ++ b) = some (st2, k2, t1 ++ t2) := by
  induction a with
  | nil =>
    intro st k st1 k1 t1 st2 k2 t2 h1 h2
    simp only [logBook, Option.some.injEq, Prod.mk.injEq] at h1
    obtain ⟨rfl, rfl, rfl⟩ := h1
    exact h2
  | cons e a ih =>
    intro st k st1 k1 t1 st2 k2 t2 h1 h2
    cases e with
    | out d =>
      rw [List.cons_append, logBook]
      rw [logBook] at h1
      cases hc : logChunks o clk st k [d] with
      | none => rw [hc] at h1; simp at h1
      | some r =>
        obtain ⟨s, kk, t⟩ := r
        rw [hc] at h1
        simp only [Option.map_eq_some_iff, Prod.mk.injEq] at h1 ⊢
        obtain ⟨⟨r1, r2, r3⟩, e1, rfl, rfl, rfl⟩ := h1
        exact ⟨_, ih _ _ _ _ _ _ _ _ e1 h2, rfl, rfl, by rw [List.append_assoc]⟩
    | note t =>
      rw [List.cons_append, logBook]
      rw [logBook] at h1
      simp only [Option.map_eq_some_iff, Prod.mk.injEq] at h1 ⊢
      obtain ⟨⟨r1, r2, r3⟩, e1, rfl, rfl, rfl⟩ := h1
      exact ⟨_, ih _ _ _ _ _ _ _ _ e1 h2, rfl, rfl, by rw [List.append_assoc]⟩

/-- `o'` is the log `o` after the entries `evs`. -/
structure LogAdd (clk : Nat → List UInt8) (evs : List LogEv) (o o' : Obj) : Prop where
  kind : o'.kind = o.kind
  opts : o'.opts = o.opts
  gen : o'.gen = o.gen
  eof : o'.eof = o.eof
  book : ∃ txt, logBook o.opts clk o.line o.stamps evs = some (o'.line, o'.stamps, txt) ∧ o'.pend = lastN queueCap (o.pend ++ txt)

theorem LogAdd.same {clk : Nat → List UInt8} {o o' : Obj} (hc : o.pend.length ≤ queueCap) (h1 : o'.kind = o.kind) (h2 : o'.opts = o.opts)
    (h3 : o'.gen = o.gen) (h4 : o'.eof = o.eof) (h5 : o'.line = o.line) (h6 : o'.stamps = o.stamps) (h7 : o'.pend = o.pend) :
    LogAdd clk [] o o' :=
  ⟨h1, h2, h3, h4, [], by rw [h5, h6]; rfl, by rw [h7, List.append_nil, lastN_self _ _ hc]⟩

theorem LogAdd.refl {clk : Nat → List UInt8} {o : Obj} (hc : o.pend.length ≤ queueCap) : LogAdd clk [] o o :=
  .same hc rfl rfl rfl rfl rfl rfl rfl

theorem LogAdd.trans {clk : Nat → List UInt8} {a b : List LogEv} {x y z : Obj} (h : LogAdd clk a x y) (h' : LogAdd clk b y z) :
    LogAdd clk (a ++ b) x z := by
  obtain ⟨t1, b1, p1⟩ := h.book
  obtain ⟨t2, b2, p2⟩ := h'.book
  rw [h.opts] at b2
  exact ⟨by rw [h'.kind, h.kind], by rw [h'.opts, h.opts], by rw [h'.gen, h.gen], by rw [h'.eof, h.eof], t1 ++ t2,
    logBook_append _ _ _ _ _ _ _ _ _ _ _ _ b1 b2, by rw [p2, p1, lastN_append_lastN, List.append_assoc]⟩

theorem LogAdd.cap {clk : Nat → List UInt8} {evs : List LogEv} {o o' : Obj} (h : LogAdd clk evs o o') : o'.pend.length ≤ queueCap := by
  obtain ⟨t, _, p⟩ := h.book
  rw [p]; exact lastN_len _ _

theorem Obj.write_opts (o : Obj) (d : List UInt8) (b : Bool) : (o.write d b).opts = o.opts ∧ (o.write d b).stamps = o.stamps := by
  unfold Obj.write
  split
  · exact ⟨rfl, rfl⟩
  split
  · exact ⟨rfl, rfl⟩
  split <;> exact ⟨rfl, rfl⟩

theorem Obj.write_data_line (o : Obj) (d : List UInt8) : (o.write d false).line = o.line := by
  unfold Obj.write
  split
  · rfl
  split
  · rfl
  split
  · rfl
  · dsimp only; rw [if_neg (fun g => Bool.false_ne_true g.1)]

theorem Obj.write_info_line (o : Obj) (d : List UInt8) (hk : o.kind = .logfile) (he : o.eof = false) (hd : d ≠ []) :
    (o.write d true).line = .init := by
  unfold Obj.write
  rw [if_neg hd, if_neg (by simp [he]), if_neg (by rw [hk]; simp)]
  dsimp only
  rw [if_pos ⟨rfl, hk⟩]

/-- A notice. -/
theorem LogAdd.note (clk : Nat → List UInt8) (o : Obj) (d : List UInt8) (hk : o.kind = .logfile) (he : o.eof = false)
    (hc : o.pend.length ≤ queueCap) (hd : d ≠ [] ∧ d.length ≤ queueCap) : LogAdd clk [.note d] o (o.write d true) := by
  refine ⟨by simp, (o.write_opts d true).1, by simp, by simp, d, ?_, ?_⟩
  · rw [logBook, logBook, o.write_info_line d hk he hd.1, (o.write_opts d true).2]; simp
  · rw [Obj.write_info_pend _ _ he (by rw [hk]; simp) hc, enq_le _ _ hd.2]

theorem writes_line (l : List (List UInt8)) (o : Obj) :
    (l.foldl (fun o d => o.write d false) o).line = o.line ∧ (l.foldl (fun o d => o.write d false) o).stamps = o.stamps ∧
    (l.foldl (fun o d => o.write d false) o).opts = o.opts ∧ (l.foldl (fun o d => o.write d false) o).kind = o.kind ∧
    (l.foldl (fun o d => o.write d false) o).gen = o.gen ∧ (l.foldl (fun o d => o.write d false) o).eof = o.eof := by
  induction l generalizing o with
  | nil => exact ⟨rfl, rfl, rfl, rfl, rfl, rfl⟩
  | cons d l ih =>
    rw [List.foldl_cons]
    obtain ⟨h1, h2, h3, h4, h5, h6⟩ := ih (o.write d false)
    exact ⟨by rw [h1, o.write_data_line], by rw [h2, (o.write_opts d false).2], by rw [h3, (o.write_opts d false).1],
      by rw [h4]; simp, by rw [h5]; simp, by rw [h6]; simp⟩

/-- Output of the console. -/
theorem LogAdd.out (clk : Nat → List UInt8) (hclk : ∀ k, (clk k).length = 20) (o : Obj) (d : List UInt8) (he : o.eof = false)
    (hc : o.pend.length ≤ queueCap) (hd : d.length ≤ queueCap) : LogAdd clk [.out d] o (o.writeLog clk d) := by
  obtain ⟨r, hr, hb⟩ : ∃ r, writeLogData o.opts clk o.line o.stamps d = some r ∧ ∀ b ∈ r.out, b.length ≤ queueCap := by
    by_cases hp : o.opts.sanitize = true ∨ o.opts.timestamp = true
    · obtain ⟨r, h, -, -, -, hb⟩ := writeLogData_eq o.opts clk hclk hp o.line o.stamps d
      rw [logBufCap_eq] at hb
      exact ⟨r, h, hb⟩
    · simp only [not_or, Bool.not_eq_true] at hp
      exact ⟨_, by unfold writeLogData; rw [if_pos hp], by simpa using hd⟩
  have e : o.writeLog clk d = r.out.foldl (fun o b => o.write b false) { o with line := r.st, stamps := r.k } := by
    unfold Obj.writeLog; rw [hr]; rfl
  obtain ⟨h1, h2, h3, h4, h5, h6⟩ := writes_line r.out { o with line := r.st, stamps := r.k }
  rw [e]
  refine ⟨h4, h3, h5, h6, r.out.flatten, ?_, ?_⟩
  · rw [h1, h2]; simp [logBook, logChunks, hr]
  · rw [writes_pend]
    · exact enqs_eq _ _ hc hb
    · exact he
    · exact hc

theorem Passive.logAdd {env : Env} (he : LogEnv env) (clk : Nat → List UInt8) {o o' : Obj} (h : Passive env o o') :
    o.kind = .logfile → o.eof = false → o.pend.length ≤ queueCap → ∃ evs, LogAdd clk evs o o' ∧ NotesOk env evs ∧ logOuts evs = [] := by
  induction h with
  | refl => exact fun _ _ hc => ⟨[], .refl hc, by simp [NotesOk], rfl⟩
  | trans _ _ h1 h2 =>
    intro hk hf hc
    obtain ⟨e1, a1, n1, o1⟩ := h1 hk hf hc
    obtain ⟨e2, a2, n2, o2⟩ := h2 (by rw [a1.kind]; exact hk) (by rw [a1.eof]; exact hf) a1.cap
    exact ⟨e1 ++ e2, a1.trans a2, n1.append n2, by rw [logOuts_append, o1, o2]; rfl⟩
  | info o n t _ =>
    intro hk hf hc
    refine ⟨[.note (env.txt n t)], .note clk o _ hk hf hc (he.txt n t), ?_, rfl⟩
    intro x hx
    simp only [List.mem_singleton, LogEv.note.injEq] at hx
    exact ⟨n, t, hx⟩
  | links => exact fun _ _ hc => ⟨[], .same hc rfl rfl rfl rfl rfl rfl rfl, by simp [NotesOk], rfl⟩
  | orphan _ h => intro hk; rw [h] at hk; simp at hk

theorem Ext.logAdd {env : Env} (he : LogEnv env) (clk : Nat → List UInt8) {b : Bool} {o o' : Obj} (h : Ext env b o o') : b = false →
    o.kind = .logfile → o.eof = false → o.pend.length ≤ queueCap → ∃ evs, LogAdd clk evs o o' ∧ NotesOk env evs ∧ logOuts evs = [] := by
  induction h with
  | refl => exact fun _ _ _ hc => ⟨[], .refl hc, by simp [NotesOk], rfl⟩
  | trans _ _ h1 h2 =>
    intro hb hk hf hc
    obtain ⟨e1, a1, n1, o1⟩ := h1 hb hk hf hc
    obtain ⟨e2, a2, n2, o2⟩ := h2 hb (by rw [a1.kind]; exact hk) (by rw [a1.eof]; exact hf) a1.cap
    exact ⟨e1 ++ e2, a1.trans a2, n1.append n2, by rw [logOuts_append, o1, o2]; rfl⟩
  | pass p => exact fun _ => p.logAdd he clk
  | reset _ _ _ h => intro _ hk; rw [hk] at h; simp [OKind.isConsole] at h
  | data _ _ h => intro hb; rw [h] at hb; simp at hb
  | log _ _ _ h => intro hb; rw [h] at hb; simp at hb

/-- What a step does to a log; nothing of it is lost if the log is not shut down in it and its buffer not full. -/
def Books (env : Env) (w w' : World) (l : Nat) (d : List UInt8) : Prop :=
  ∃ evs x txt, NotesOk env evs ∧ logOuts evs = d ∧ sentTo l w'.fx = sentTo l w.fx ++ x ∧
    logBook (w.obj l).opts (env.clk l) (w.obj l).line (w.obj l).stamps evs = some ((w'.obj l).line, (w'.obj l).stamps, txt) ∧
    (x ++ (w'.obj l).pend).Sublist ((w.obj l).pend ++ txt) ∧
    ((w'.obj l).gen = (w.obj l).gen → x ++ (w'.obj l).pend = lastN queueCap ((w.obj l).pend ++ txt)) ∧
    (x = [] ∨ txt = []) ∧ (w'.obj l).opts = (w.obj l).opts

theorem Books.add {env : Env} {w w' : World} {l : Nat} {d : List UInt8} {evs : List LogEv} (hs : sentTo l w'.fx = sentTo l w.fx)
    (a : LogAdd (env.clk l) evs (w.obj l) (w'.obj l)) (hn : NotesOk env evs) (ho : logOuts evs = d) : Books env w w' l d := by
  obtain ⟨t, b, p⟩ := a.book
  exact ⟨evs, [], t, hn, ho, by rw [hs, List.append_nil], b, by rw [List.nil_append, p]; exact lastN_sublist _ _, fun _ => by rw [List.nil_append, p],
    Or.inl rfl, a.opts⟩

theorem said_data (w : World) (con i : Nat) (up : Bool) (d : List UInt8) (wr : Option WriteRes) :
    said w con (.poll i up (some (.data d)) wr) =
    if i = con ∧ ((w.obj con).pin = true ∨ (w.obj con).pout = true) then
      if (w.obj con).kind = .telnet then
        if (w.obj con).conn = .up then
          match telChunks (w.obj con).iac [d] with
          | some (_, app, _) => app
          | none => []
        else []
      else d
    else [] := rfl

theorem LogOf.step {env : Env} {w w' : World} (h : DInv w) (s : Step) (hs : w.step env s = some w') {l con : Nat} (g : LogOf w l con) :
    LogOf w' l con := by
  have hin := (g.wr con).2 rfl
  have hk : (w.obj con).kind.isConsole = true := by
    rcases h.inv.l.kinds con l hin with q | q
    · have := q.2; rw [g.kind] at this; simp [OKind.isConsole] at this
    · exact q.1
  obtain ⟨k1, k2, k3⟩ := step_lk h s hs con l hin (not_client_of_console hk) (by rw [g.kind]; simp)
  refine ⟨by rw [k3]; exact g.kind, fun a => ⟨fun ha => ?_, fun e => by rw [e]; exact k1⟩⟩
  rcases (step_links h s hs).2 a l ha with q | q
  · exact (g.wr a).1 q
  rcases q with ⟨c, k, q, rfl, hq, z⟩ | ⟨up, d, wr, rfl, kc, hw, hc⟩
  · have hl := (h.inv.l.live con l hin).2
    rcases z with ⟨rfl, z, _⟩ | ⟨rfl, _⟩
    · have := ((h.wait q (List.mem_of_getElem? hq)).2.2 l z).2
      rw [g.kind] at this; simp [OKind.isConsole] at this
    · simp only [World.step, hq, if_pos hl, Option.some.injEq] at hs
      subst hs
      exact (g.wr a).1 ha
  · exfalso
    have : a ∈ (w.obj l).readers := (h.inv.l.sym l a).2 (by rw [hw]; simp)
    rcases h.inv.l.kinds l a this with z | z
    · have := z.1; rw [g.kind] at this; simp at this
    · have := z.1; rw [g.kind] at this; simp [OKind.isConsole] at this

theorem read_log {w w' : World} (env : Env) (up : Bool) (l : Nat) (r : ReadRes) (hk : (w.obj l).kind = .logfile)
    (ht : w.read env up l r = some w') : w' = w ∨ w' = w.shutdown env up l ∧ (w.obj l).fd = true := by
  unfold World.read at ht
  split at ht
  · simp only [Option.some.injEq] at ht; exact Or.inl ht.symm
  rename_i hf
  split at ht
  · simp only [Option.some.injEq] at ht; exact Or.inl ht.symm
  simp only [Option.some.injEq] at ht
  exact Or.inr ⟨ht.symm, by simpa using hf⟩

/-- What one step does to the log of a console. -/
theorem log_step {env : Env} (he : LogEnv env) {w w' : World} (h : FInv w) (s : Step) (hs : w.step env s = some w') (l con : Nat)
    (g : LogOf w l con) (hlen : ∀ i up d wr, s = .poll i up (some (.data d)) wr → d.length ≤ 8191) : Books env w w' l (said w con s) := by
  have hw := h.e.d.inv
  have hcap := (hw.oi l).cap
  have hin := (g.wr con).2 rfl
  have hll := hw.l.live con l hin
  have hk := g.kind
  have hcon : (w.obj con).kind.isConsole = true := by
    rcases hw.l.kinds con l hin with q | q
    · have := q.2; rw [hk] at this; simp [OKind.isConsole] at this
    · exact q.1
  have hne : l ≠ con := by rintro rfl; rw [hk] at hcon; simp [OKind.isConsole] at hcon
  have hnc : (w.obj l).kind ≠ .client := by rw [hk]; simp
  have heof := (h.x l hll.2).log hk
  have quietFx : (∀ up rd wr, s ≠ .poll l up rd (some wr)) → sentTo l w'.fx = sentTo l w.fx := by
    intro hn
    obtain ⟨m, e1, e2⟩ := step_sent env s hs
    rw [e1, sentTo_append, sentTo_none l m, List.append_nil]
    intro d hd
    obtain ⟨_, up, rd, wr, e⟩ := e2 l d hd
    exact hn up rd wr e
  have stay : w' = w → said w con s = [] → Books env w w' l (said w con s) := by
    rintro rfl e
    rw [e]
    exact .add rfl (.refl hcap) (by simp [NotesOk]) rfl
  by_cases ht : s.target = some l
  · cases s with
    | check => simp [Step.target] at ht
    | childExit => simp [Step.target] at ht
    | grant c n =>
      simp only [Step.target, Option.some.injEq] at ht; subst ht
      simp only [World.step, Option.some.injEq] at hs
      refine stay ?_ rfl
      subst hs
      split
      · rw [if_pos hll.2]
      · rfl
    | connPend i =>
      simp only [Step.target, Option.some.injEq] at ht; subst ht
      simp only [World.step, Option.some.injEq] at hs
      rw [if_neg (by rw [hk]; simp)] at hs
      exact stay hs.symm rfl
    | connDown i =>
      simp only [Step.target, Option.some.injEq] at ht; subst ht
      simp only [World.step, Option.some.injEq] at hs
      rw [if_neg (by rw [hk]; simp)] at hs
      exact stay hs.symm rfl
    | connFail i =>
      simp only [Step.target, Option.some.injEq] at ht; subst ht
      simp only [World.step, Option.some.injEq] at hs
      rw [if_neg (by rw [hk]; simp)] at hs
      exact stay hs.symm rfl
    | resetTimeout i =>
      simp only [Step.target, Option.some.injEq] at ht; subst ht
      have hfx := quietFx (by intro _ _ _ e; cases e)
      simp only [World.step, Option.some.injEq] at hs
      subst hs
      refine .add hfx ?_ (show NotesOk env [] by simp [NotesOk]) rfl
      split
      · split
        · rw [World.mod_self]; exact .same hcap rfl rfl rfl rfl rfl rfl rfl
        · split
          · dsimp only
            rw [World.mod_self]; exact .same hcap rfl rfl rfl rfl rfl rfl rfl
          · rw [World.mod_self]; exact .same hcap rfl rfl rfl rfl rfl rfl rfl
      · exact .refl hcap
    | logOpen i ok =>
      simp only [Step.target, Option.some.injEq] at ht; subst ht
      have hfx := quietFx (by intro _ _ _ e; cases e)
      simp only [World.step, Option.some.injEq] at hs
      rw [if_pos hk] at hs
      subst hs
      cases ok with
      | false =>
        refine .add hfx ?_ (show NotesOk env [] by simp [NotesOk]) rfl
        rw [World.mod_self]
        exact .same hcap rfl rfl rfl rfl rfl rfl rfl
      | true =>
        refine .add (evs := [.note (env.txt (.logOpened i) w.tick)]) hfx ?_ ?_ rfl
        · rw [World.mod_self]
          rw [if_pos rfl]
          refine ⟨by simp, (Obj.write_opts _ _ _).1, by simp, by simp [heof], env.txt (.logOpened i) w.tick, ?_, ?_⟩
          · rw [logBook, logBook]
            dsimp only
            rw [(Obj.write_opts _ _ _).2]
            simp
          · dsimp only
            rw [Obj.write_data_pend _ _ (by rfl) (by exact hcap), enq_le _ _ (he.txt _ _).2]
        · intro x hx
          simp only [List.mem_singleton, LogEv.note.injEq] at hx
          exact ⟨_, _, hx⟩
    | logStamp i =>
      simp only [Step.target, Option.some.injEq] at ht; subst ht
      have hfx := quietFx (by intro _ _ _ e; cases e)
      simp only [World.step, Option.some.injEq] at hs
      rw [if_pos hk] at hs
      subst hs
      refine .add (evs := [.note (env.txt (.logStamp i) w.tick)]) hfx ?_ ?_ rfl
      · unfold World.note
        rw [World.mod_self]
        exact .note _ _ _ hk heof hcap (he.txt _ _)
      · intro x hx
        simp only [List.mem_singleton, LogEv.note.injEq] at hx
        exact ⟨_, _, hx⟩
    | connUp i =>
      simp only [Step.target, Option.some.injEq] at ht; subst ht
      simp only [World.step, Option.some.injEq, if_pos hll.2] at hs
      unfold World.connUp at hs
      dsimp only at hs
      rw [if_pos (by rw [hk]; rfl)] at hs
      exact stay hs.symm rfl
    | poll i up rd wr =>
      simp only [Step.target, Option.some.injEq] at ht; subst ht
      have sd : said w con (.poll i up rd wr) = [] := by
        unfold said
        split
        · rename_i heq
          simp only [Step.poll.injEq] at heq
          obtain ⟨rfl, -, -, -⟩ := heq
          rw [if_neg (fun z => hne z.1)]
        · rfl
      simp only [World.step] at hs
      split at hs
      · simp only [Option.some.injEq] at hs; exact stay hs.symm sd
      simp only [Option.map_eq_some_iff] at hs
      obtain ⟨w1, h1, h2⟩ := hs
      have sd1 : ∀ v : World, (v.obj i).fd = true → (v.obj i).kind = .logfile →
          ((v.shutdown env up i).obj i).gen = (v.obj i).gen + 1 ∧ ((v.shutdown env up i).obj i).pend = [] ∧
          ((v.shutdown env up i).obj i).line = (v.obj i).line ∧ ((v.shutdown env up i).obj i).stamps = (v.obj i).stamps ∧
          ((v.shutdown env up i).obj i).opts = (v.obj i).opts ∧ ((v.shutdown env up i).obj i).fd = false ∧
          ((v.shutdown env up i).obj i).kind = .logfile := by
        intro v hf hk
        unfold World.shutdown
        rw [if_neg (by simp [hf])]
        simp only [World.mod_self, hk, and_self]
      have fl : ∀ (v : World) (r : WriteRes), (v.obj i).kind = .logfile → ∃ n, sentTo i (v.flush env up i r).fx = sentTo i v.fx ++ (v.obj i).pend.take n ∧
          ((v.flush env up i r).obj i).line = (v.obj i).line ∧ ((v.flush env up i r).obj i).stamps = (v.obj i).stamps ∧
          ((v.flush env up i r).obj i).opts = (v.obj i).opts ∧
          (((v.flush env up i r).obj i).gen = (v.obj i).gen ∧ ((v.flush env up i r).obj i).pend = (v.obj i).pend.drop n ∨
           ((v.flush env up i r).obj i).gen = (v.obj i).gen + 1 ∧ ((v.flush env up i r).obj i).pend = []) := by
        intro v r hk
        unfold World.flush
        dsimp only
        by_cases hf : (v.obj i).fd = false
        · rw [if_pos hf]; exact ⟨0, by simp, rfl, rfl, rfl, Or.inl ⟨rfl, rfl⟩⟩
        rw [if_neg hf, if_neg (by rw [hk]; simp)]
        have hd : ((v.push i (r.count (v.obj i).pend.length)).drained i).obj i =
            { v.obj i with pend := (v.obj i).pend.drop (r.count (v.obj i).pend.length),
                           pout := (((v.push i (r.count (v.obj i).pend.length)).drained i).obj i).pout } := by
          unfold World.drained
          split
          · rw [World.mod_self, push_obj]
          · rw [push_obj]
        have hs' : sentTo i ((v.push i (r.count (v.obj i).pend.length)).drained i).fx =
            sentTo i v.fx ++ (v.obj i).pend.take (r.count (v.obj i).pend.length) := by
          rw [drained_fx, push_sentTo]
        generalize (v.push i (r.count (v.obj i).pend.length)).drained i = u at hd hs' ⊢
        refine ⟨r.count (v.obj i).pend.length, ?_, ?_⟩
        · split
          · rw [(shutdown_sameFx _ _ _ _).1]; exact hs'
          · exact hs'
        split
        · obtain ⟨a1, a2, a3, a4, a5, -⟩ := sd1 u (by rw [hd]; simpa using hf) (by rw [hd]; exact hk)
          exact ⟨by rw [a3, hd], by rw [a4, hd], by rw [a5, hd], Or.inr ⟨by rw [a1, hd], a2⟩⟩
        · exact ⟨by rw [hd], by rw [hd], by rw [hd], Or.inl ⟨by rw [hd], by rw [hd]⟩⟩
      have e1 : w1 = w ∨ w1 = w.shutdown env up i ∧ (w.obj i).fd = true := by
        cases rd with
        | none => simp only [Option.some.injEq] at h1; exact Or.inl h1.symm
        | some r => exact read_log env up i r hk h1
      rw [sd]
      rcases e1 with rfl | ⟨e1, hf⟩
      · split at h2
        · subst h2; exact .add rfl (.refl hcap) (show NotesOk env [] by simp [NotesOk]) rfl
        split at h2
        · subst h2; exact .add rfl (.refl hcap) (show NotesOk env [] by simp [NotesOk]) rfl
        · subst h2
          obtain ⟨n, f1, f2, f3, f4, f5⟩ := fl w1 _ hk
          refine ⟨[], _, [], by simp [NotesOk], rfl, f1, by rw [f2, f3]; rfl, ?_, fun hg => ?_, Or.inr rfl, f4⟩
          · rw [List.append_nil]
            rcases f5 with z | z
            · rw [z.2, List.take_append_drop]; exact List.Sublist.refl _
            · rw [z.2, List.append_nil]; exact List.take_sublist _ _
          · rcases f5 with z | z
            · rw [z.2, List.take_append_drop, List.append_nil, lastN_self _ _ hcap]
            · exfalso; have := z.1; omega
      · have a := sd1 w hf hk
        rw [← e1] at a
        have key : sentTo i w'.fx = sentTo i w.fx ∧ (w'.obj i).gen = (w.obj i).gen + 1 ∧ (w'.obj i).pend = [] ∧
            (w'.obj i).line = (w.obj i).line ∧ (w'.obj i).stamps = (w.obj i).stamps ∧ (w'.obj i).opts = (w.obj i).opts := by
          have q : sentTo i w1.fx = sentTo i w.fx := by rw [e1, (shutdown_sameFx _ _ _ _).1]
          have t : w' = w1 := by
            subst h2
            split
            · rfl
            split
            · rfl
            · unfold World.flush; dsimp only; rw [if_pos a.2.2.2.2.2.1]
          rw [t]
          exact ⟨q, a.1, a.2.1, a.2.2.1, a.2.2.2.1, a.2.2.2.2.1⟩
        obtain ⟨k1, k2, k3, k4, k5, k6⟩ := key
        refine ⟨[], [], [], by simp [NotesOk], rfl, by rw [k1, List.append_nil], by rw [k4, k5]; rfl, ?_, fun hg => by omega, Or.inr rfl, k6⟩
        rw [k3]; exact List.nil_sublist _
  · have hfx : sentTo l w'.fx = sentTo l w.fx := quietFx (by rintro up rd wr rfl; exact ht rfl)
    have plain : dataTo w s l = false → said w con s = [] → Books env w w' l (said w con s) := by
      intro hd e
      rw [e]
      obtain ⟨evs, a, n, o⟩ := (step_ext h.e.d env s hs l ht).logAdd he (env.clk l) hd hk heof hcap
      exact .add hfx a n o
    cases s with
    | poll i up rd wr =>
      have hli : l ≠ i := by rintro rfl; exact ht rfl
      cases rd with
      | none => exact plain rfl rfl
      | some r =>
        cases r with
        | eof => exact plain rfl rfl
        | again => exact plain rfl rfl
        | err => exact plain rfl rfl
        | data d =>
          have hd := hlen i up d wr rfl
          by_cases hi : i = con
          case neg =>
            apply plain
            · unfold dataTo
              dsimp only
              split
              · rw [hk]; rfl
              · have : l ∉ (w.obj i).readers := fun z => hi ((g.wr i).1 z)
                simpa using this
            · rw [said_data, if_neg (fun z => hi z.1)]
          subst hi
          simp only [World.step] at hs
          by_cases hpp : (w.obj i).pin = true ∨ (w.obj i).pout = true
          case neg =>
            rw [if_pos (Or.inr (by simpa using hpp))] at hs
            simp only [Option.some.injEq] at hs
            exact stay hs.symm (by rw [said_data, if_neg (fun z => hpp z.2)])
          rw [if_neg (by rcases hpp with z | z <;> simp [hll.1, z])] at hs
          simp only [Option.map_eq_some_iff] at hs
          obtain ⟨w1, h1, h2⟩ := hs
          have i1 := read_inv hw env up i (.data d) h1
          have hfd : (w.obj i).fd = true := by
            cases hf : (w.obj i).fd with
            | true => rfl
            | false =>
              have := (hw.oi i).closed hf
              rcases hpp with z | z
              · rw [this.1] at z; simp at z
              · rw [this.2] at z; simp at z
          have rdd : ∃ evs, LogAdd (env.clk l) evs (w.obj l) (w1.obj l) ∧ NotesOk env evs ∧
              logOuts evs = said w i (.poll i up (some (.data d)) wr) := by
            have wr1 : ∀ (e : List UInt8) (v : World), LInv v → v.obj l = w.obj l → l ∈ (v.obj i).readers → e.length ≤ queueCap →
                ∃ evs, LogAdd (env.clk l) evs (w.obj l) ((v.deliver env i e).obj l) ∧ NotesOk env evs ∧ logOuts evs = e := by
              intro e v hv hvc hvr hel
              by_cases h0 : e = []
              · subst h0; rw [deliver_nil, hvc]; exact ⟨[], .refl hcap, by simp [NotesOk], rfl⟩
              · rw [(deliver_exact hv env i e h0).1, if_pos hvr, hvc, if_pos hk]
                exact ⟨[.out e], .out _ (he.clk l) _ _ heof hcap hel, by simp [NotesOk], by simp [logOuts]⟩
            unfold World.read at h1
            rw [if_neg (by simp [hfd])] at h1
            rw [said_data, if_pos ⟨rfl, hpp⟩]
            by_cases htel : (w.obj i).kind = .telnet
            · rw [if_pos htel]
              by_cases hup : (w.obj i).conn = .up
              · rw [if_pos hup]
                rw [if_neg (by simp [hup]), if_neg (by rw [htel]; simp)] at h1
                simp only [htel, Option.map_eq_some_iff] at h1
                rw [List.take_of_length_le (by rw [readBufSize_eq]; exact hd)] at h1
                obtain ⟨t, ht1, rfl⟩ := h1
                obtain ⟨t', e1, e2⟩ := tel_ok (h.x i hll.1).iac d
                rw [ht1, Option.some.injEq] at e1
                subst e1
                rw [e2]
                have hsl : SL w (w.mod i (fun o => ({ o with iac := t.iac }).write t.sent false)) := by
                  refine ⟨fun j => ?_, rfl⟩
                  rw [World.mod_obj]; split
                  · rename_i e; subst e; simp
                  · exact ⟨rfl, rfl, rfl⟩
                have hlen' : (t.buf.take t.len).length ≤ 8191 := by
                  have ht' := telLoop_eq d 0 0 (w.obj i).iac [] (by omega) (by omega)
                  unfold processTelnetEscapes at ht1
                  rw [ht1, List.drop_zero] at ht'
                  cases hr : telRef (w.obj i).iac d with
                  | none => simp [hr, TelOut.trip] at ht'
                  | some r =>
                    simp only [hr, TelOut.trip] at ht'
                    rw [List.length_take]; omega
                exact wr1 _ _ (hw.l.same hsl) (World.mod_ne _ _ hli) (by rw [World.mod_self]; simpa using hin)
                  (by unfold queueCap; omega)
              · rw [if_neg hup]
                rw [if_pos ⟨htel, hup⟩] at h1
                simp only [Option.some.injEq] at h1; subst h1
                exact ⟨[], .refl hcap, by simp [NotesOk], rfl⟩
            · rw [if_neg htel]
              rw [if_neg (fun z => htel z.1), if_neg (by intro hlg; rw [hlg] at hcon; simp [OKind.isConsole] at hcon)] at h1
              dsimp only at h1
              rw [List.take_of_length_le (by rw [readBufSize_eq]; exact hd)] at h1
              split at h1
              · rename_i hkc; rw [hkc] at hcon; simp [OKind.isConsole] at hcon
              · rename_i hkc; exact absurd hkc htel
              · simp only [Option.some.injEq] at h1; subst h1
                exact wr1 d w hw.l rfl hin (by unfold queueCap; omega)
          obtain ⟨evs, a, n, o⟩ := rdd
          have fl : ∃ evs', LogAdd (env.clk l) evs' (w1.obj l) (w'.obj l) ∧ NotesOk env evs' ∧ logOuts evs' = [] := by
            have triv : w' = w1 → ∃ evs', LogAdd (env.clk l) evs' (w1.obj l) (w'.obj l) ∧ NotesOk env evs' ∧ logOuts evs' = [] := by
              rintro rfl; exact ⟨[], .refl a.cap, by simp [NotesOk], rfl⟩
            split at h2
            · exact triv h2.symm
            split at h2
            · exact triv h2.symm
            · subst h2
              exact (flush_estep i1.1 env up i _ (fun _ => false) l hli).logAdd he _ rfl (by rw [a.kind]; exact hk)
                (by rw [a.eof]; exact heof) a.cap
          obtain ⟨evs', a', n', o'⟩ := fl
          exact .add hfx (a.trans a') (n.append n') (by rw [logOuts_append, o, o', List.append_nil])
    | _ => exact plain rfl rfl

/-- The log over a history. -/
theorem log_run {env : Env} (he : LogEnv env) (l con : Nat) (ss : List Step) : ∀ {w w' : World}, FInv w → w.run env ss = some w' →
    LogOf w l con → (∀ i up d wr, .poll i up (some (.data d)) wr ∈ ss → d.length ≤ 8191) →
    LogOf w' l con ∧ (w'.obj l).opts = (w.obj l).opts ∧
    ∃ evs x txt, NotesOk env evs ∧ logOuts evs = saidAll env w con ss ∧ sentTo l w'.fx = sentTo l w.fx ++ x ∧
      logBook (w.obj l).opts (env.clk l) (w.obj l).line (w.obj l).stamps evs = some ((w'.obj l).line, (w'.obj l).stamps, txt) ∧
      (x ++ (w'.obj l).pend).Sublist ((w.obj l).pend ++ txt) ∧
      ((w'.obj l).gen = (w.obj l).gen → neverFull env w l ss = true → x ++ (w'.obj l).pend = (w.obj l).pend ++ txt) := by
  induction ss with
  | nil =>
    intro w w' _ hr g _
    simp only [World.run, Option.some.injEq] at hr; subst hr
    exact ⟨g, rfl, [], [], [], by simp [NotesOk], rfl, by simp, rfl, by simp, by simp⟩
  | cons s ss ih =>
    intro w w' h hr g hlen
    simp only [World.run, Option.bind_eq_some_iff] at hr
    obtain ⟨w1, h1, h2⟩ := hr
    have h3 := (h.step s h1).tick (w1.tick + 1)
    have g1 := g.step h.e.d s h1
    obtain ⟨e1, x1, t1, n1, o1, s1, b1, p0, p1, z1, q1⟩ := log_step he h s h1 l con g (fun i up d wr e => hlen i up d wr (by simp [e]))
    obtain ⟨g2, q2, e2, x2, t2, n2, o2, s2, b2, p2, f2⟩ := ih (w := { w1 with tick := w1.tick + 1 }) h3 h2 ⟨g1.kind, g1.wr⟩
      (fun i up d wr hm => hlen i up d wr (by simp [hm]))
    have e : saidAll env w con (s :: ss) = said w con s ++ saidAll env { w1 with tick := w1.tick + 1 } con ss := by
      rw [saidAll, h1]
    refine ⟨g2, by rw [q2]; exact q1, e1 ++ e2, x1 ++ x2, t1 ++ t2, n1.append n2, by rw [logOuts_append, o1, o2, e], ?_, ?_, ?_, ?_⟩
    · rw [s2]; show sentTo l w1.fx ++ x2 = _; rw [s1, List.append_assoc]
    · refine logBook_append _ _ _ _ _ _ _ _ _ _ _ _ b1 ?_
      rw [← q1]; exact b2
    · rw [List.append_assoc, ← List.append_assoc (w.obj l).pend]
      refine (List.Sublist.append_left p2 x1).trans ?_
      rw [← List.append_assoc]
      refine List.Sublist.append_right ?_ _
      show (x1 ++ (w1.obj l).pend).Sublist _
      exact p0
    · intro hg hf
      have hg1 : (w1.obj l).gen = (w.obj l).gen := by
        have a := step_mono h s h1 l
        have b : (w1.obj l).gen ≤ (w'.obj l).gen := run_mono (w := { w1 with tick := w1.tick + 1 }) l ss h3 h2
        omega
      unfold neverFull at hf
      rw [h1] at hf
      simp only [Bool.and_eq_true, decide_eq_true_eq] at hf
      have p1 := p1 hg1
      have f := f2 (by rw [hg]; exact hg1.symm) hf.2
      have p3 : x1 ++ (w1.obj l).pend = (w.obj l).pend ++ t1 := by
        rw [p1]
        rcases z1 with rfl | rfl
        · have hl : (w1.obj l).pend.length < queueCap := hf.1
          rw [List.nil_append] at p1
          rw [p1] at hl
          unfold lastN at hl ⊢
          rw [List.length_drop] at hl
          have : ((w.obj l).pend ++ t1).length - queueCap = 0 := by omega
          rw [this, List.drop_zero]
        · rw [List.append_nil, lastN_self _ _ (h.e.d.inv.oi l).cap]
      rw [List.append_assoc, f]
      show x1 ++ ((w1.obj l).pend ++ t2) = _
      rw [← List.append_assoc, p3, List.append_assoc]

end Conman
