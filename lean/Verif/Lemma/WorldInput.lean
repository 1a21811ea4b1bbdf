import Verif.Lemma.WorldSplit
import Verif.Lemma.WorldQuiet
import Verif.Spec.Input

/-
Input of consoles: what reaches them is what clients wrote.
-/
namespace Conman
open Spec

/-- `o'` is `o` after `d` was written to it. -/
structure InFed (d : List UInt8) (o o' : Obj) : Prop where
  kind : o'.kind = o.kind
  conn : o'.conn = o.conn
  eof : o'.eof = o.eof
  gen : o'.gen = o.gen
  fd : o'.fd = o.fd
  pend : o'.pend = if o.eof then o.pend else lastN queueCap (o.pend ++ d)

theorem InFed.same {o o' : Obj} (hc : o.pend.length ≤ queueCap) (h1 : o'.kind = o.kind) (h2 : o'.conn = o.conn) (h3 : o'.eof = o.eof)
    (h4 : o'.gen = o.gen) (h5 : o'.fd = o.fd) (h6 : o'.pend = o.pend) : InFed [] o o' := by
  refine ⟨h1, h2, h3, h4, h5, ?_⟩
  rw [h6]
  split
  · rfl
  · rw [List.append_nil, lastN_self _ _ hc]

theorem InFed.refl {o : Obj} (hc : o.pend.length ≤ queueCap) : InFed [] o o := .same hc rfl rfl rfl rfl rfl rfl

theorem InFed.trans {a b : List UInt8} {x y z : Obj} (h : InFed a x y) (h' : InFed b y z) : InFed (a ++ b) x z := by
  refine ⟨by rw [h'.kind, h.kind], by rw [h'.conn, h.conn], by rw [h'.eof, h.eof], by rw [h'.gen, h.gen], by rw [h'.fd, h.fd], ?_⟩
  rw [h'.pend, h.pend, h.eof]
  split
  · rfl
  · rw [lastN_append_lastN, List.append_assoc]

theorem InFed.cap {d : List UInt8} {o o' : Obj} (h : InFed d o o') (hc : o.pend.length ≤ queueCap) : o'.pend.length ≤ queueCap := by
  rw [h.pend]
  split
  · exact hc
  · exact lastN_len _ _

theorem InFed.write (o : Obj) (d : List UInt8) (hc : o.pend.length ≤ queueCap) (hd : d.length ≤ queueCap) : InFed d o (o.write d false) := by
  refine ⟨by simp, by simp, by simp, by simp, by simp, ?_⟩
  split
  · rename_i he; rw [Obj.write_of_eof _ _ _ he]
  · rename_i he
    rw [Obj.write_data_pend _ _ (by simpa using he) hc, enq_le _ _ hd]

theorem Passive.fed {o o' : Obj} (h : Passive env o o') : o.kind.isConsole = true → o.pend.length ≤ queueCap → InFed [] o o' := by
  induction h with
  | refl => exact fun _ hc => .refl hc
  | trans p _ h1 h2 =>
    intro hk hc
    have f := h1 hk hc
    exact f.trans (h2 (by rw [f.kind]; exact hk) (f.cap hc))
  | info o _ _ h => intro hk; rw [h] at hk; simp at hk
  | links => exact fun _ hc => .same hc rfl rfl rfl rfl rfl rfl
  | orphan o h => intro hk; rw [h] at hk; simp [OKind.isConsole] at hk

theorem Ext.fed {b : Bool} {o o' : Obj} (h : Ext env b o o') : b = false → o.kind.isConsole = true → o.pend.length ≤ queueCap → InFed [] o o' := by
  induction h with
  | refl => exact fun _ _ hc => .refl hc
  | trans p _ h1 h2 =>
    intro hb hk hc
    have f := h1 hb hk hc
    exact f.trans (h2 hb (by rw [f.kind]; exact hk) (f.cap hc))
  | pass p => exact fun _ => p.fed
  | reset => exact fun _ _ hc => .same hc rfl rfl rfl rfl rfl rfl
  | data _ _ h => intro hb; rw [h] at hb; simp at hb
  | log _ _ _ h => intro hb; rw [h] at hb; simp at hb

/-- A loop that changes `k` at `k` only. -/
theorem foldl_at (g : World → Nat → World) (k : Nat) (l : List Nat) : ∀ (w : World), l.Nodup →
    (∀ v i, i ≠ k → (g v i).obj k = v.obj k) →
    (k ∉ l ∧ (l.foldl g w).obj k = w.obj k) ∨ (k ∈ l ∧ ∃ v, v.obj k = w.obj k ∧ (l.foldl g w).obj k = (g v k).obj k) := by
  induction l with
  | nil => intro w _ _; exact Or.inl ⟨by simp, rfl⟩
  | cons i l ih =>
    intro w hn hg
    rw [List.nodup_cons] at hn
    rw [List.foldl_cons]
    by_cases e : i = k
    · subst e
      rcases ih (g w i) hn.2 hg with ⟨_, h2⟩ | ⟨h1, _⟩
      · exact Or.inr ⟨by simp, w, rfl, h2⟩
      · exact absurd h1 hn.1
    · rcases ih (g w i) hn.2 hg with ⟨h1, h2⟩ | ⟨h1, v, h2, h3⟩
      · exact Or.inl ⟨by simp [h1, Ne.symm e], by rw [h2, hg _ _ e]⟩
      · exact Or.inr ⟨by simp [h1], v, by rw [h2, hg _ _ e], h3⟩

theorem cmdInput_congr {o o' : Obj} (h1 : o'.kind = o.kind) (h2 : o'.conn = o.conn) (a : UInt8) : cmdInput o' a = cmdInput o a := by
  unfold cmdInput; rw [h1, h2]

theorem cmdsInput_congr {o o' : Obj} (h1 : o'.kind = o.kind) (h2 : o'.conn = o.conn) (own : Bool) (as : List UInt8) :
    ∀ wr, cmdsInput o' own wr as = cmdsInput o own wr as := by
  induction as with
  | nil => intro wr; rfl
  | cons a as ih => intro wr; simp only [cmdsInput, ih, cmdInput_congr h1 h2]

/-- Input from one command. -/
theorem act_fed {w w' : World} (h : WInv w) (env : Env) (c k : Nat) (hc : (w.obj c).kind = .client)
    (hk : (w.obj k).kind.isConsole = true) (a : UInt8) (ht : w.act env c a = some w') :
    InFed (if (w.obj c).readers.contains k then cmdInput (w.obj k) a else []) (w.obj k) (w'.obj k) := by
  have hne : k ≠ c := by rintro rfl; exact not_client_of_console hk hc
  have hcap := (h.oi k).cap
  have none_ : cmdInput (w.obj k) a = [] → InFed [] (w.obj k) (w'.obj k) →
      InFed (if (w.obj c).readers.contains k then cmdInput (w.obj k) a else []) (w.obj k) (w'.obj k) := by
    intro e f; rw [e, ite_self]; exact f
  have htog : ∀ f j, (w.mod c (fun o => { o with force := f, join := j })).toggle env c = some w' →
      InFed [] (w.obj k) (w'.obj k) := by
    intro f j hh
    have s : LStep w (w.mod c (fun o => { o with force := f, join := j })) :=
      .mod _ _ _ ⟨rfl, rfl, rfl, rfl, rfl, rfl, rfl, fun h => ⟨h.cap, h.susp, h.closed⟩⟩
    obtain ⟨cm, hp⟩ := toggle_eff (h.wstep s.ws) env c (by simp) (by rw [(s.loc c).kind]; exact hc) hh
    have := hp.touched k
    rw [World.mod_ne _ _ hne, World.mod_ne _ _ hne] at this
    exact this.fed hk hcap
  unfold World.act at ht
  split at ht
  · rename_i ha
    simp only [Option.some.injEq] at ht; subst ht
    rcases foldl_at World.break1 k (w.obj c).readers w (h.l.ndR c) (fun v i hi => break1_other v (Ne.symm hi)) with ⟨m, e⟩ | ⟨m, v, e1, e2⟩
    · rw [if_neg (by simpa using m), e]; exact .refl hcap
    · rw [if_pos (by simpa using m), e2]
      subst ha
      unfold World.break1 cmdInput
      rw [if_neg (by decide), if_pos rfl]
      rw [← e1] at hcap ⊢
      cases q : (v.obj k).kind with
      | process =>
        rw [if_pos rfl]; dsimp only; rw [World.mod_self]; exact .write _ [0x26, 0x42] hcap (by unfold queueCap; simp)
      | telnet =>
        rw [if_neg (by decide)]
        dsimp only
        by_cases u : (v.obj k).conn = .up
        · rw [if_pos u, if_pos ⟨rfl, u⟩, World.mod_self]
          exact .write _ [255, 243] hcap (by unfold queueCap; simp)
        · rw [if_neg u, if_neg (fun x => u x.2)]; exact .refl hcap
      | _ => rw [if_neg (by decide), if_neg (by simp)]; exact .refl hcap
  split at ht
  · rename_i ha
    simp only [Option.some.injEq] at ht; subst ht
    rcases foldl_at (fun w i => w.mod i (·.write [0x7F] false)) k (w.obj c).readers w (h.l.ndR c)
      (fun v i hi => World.mod_ne _ _ (Ne.symm hi)) with ⟨m, e⟩ | ⟨m, v, e1, e2⟩
    · rw [if_neg (by simpa using m), e]; exact .refl hcap
    · rw [if_pos (by simpa using m), e2, World.mod_self, e1]
      subst ha
      exact .write _ [0x7F] hcap (by unfold queueCap; simp)
  have hci : a ≠ 0x42 → a ≠ 0x44 → cmdInput (w.obj k) a = [] := by
    intro h1 h2; unfold cmdInput; rw [if_neg h2, if_neg h1]
  rename_i n1 n2
  refine none_ (hci n1 n2) ?_
  split at ht
  · exact htog _ _ ht
  split at ht
  · exact htog _ _ ht
  split at ht
  · split at ht
    · simp only [Option.some.injEq] at ht; subst ht; exact .refl hcap
    · simp only [Option.some.injEq] at ht; subst ht; rw [World.mod_ne _ _ hne]; exact .refl hcap
  split at ht
  · exact htog _ _ ht
  split at ht
  · simp only [Option.some.injEq] at ht; subst ht; rw [World.mod_ne _ _ hne]; exact .refl hcap
  split at ht
  · simp only [Option.some.injEq] at ht; subst ht
    have : EStep env (fun _ => false) c w ((w.obj c).readers.foldl (fun w con => w.reset1 env c con) w) := by
      refine .foldl _ _ _ (fun v => LStep w v) (.refl _) (fun v a ha hv => hv.trans (reset1_lstep (h.l.same hv.sl) env c a ?_))
        (fun v a ha hv => reset1_estep (h.l.same hv.sl) env c a ?_ _ _)
      · rw [(hv.loc a).kind]; exact h.l.client_readers hc ha
      · rw [(hv.loc a).kind]; exact h.l.client_readers hc ha
    exact (this k hne).fed rfl hk hcap
  split at ht
  · simp only [Option.some.injEq] at ht; subst ht; rw [World.mod_ne _ _ hne]; exact .refl hcap
  · simp only [Option.some.injEq] at ht; subst ht; exact .refl hcap

/-- Input from the commands of one read. -/
theorem acts_fed (env : Env) (c k : Nat) (as : List UInt8) : ∀ {w w' : World}, WInv w → (w.obj c).kind = .client →
    (w.obj k).kind.isConsole = true → w.acts env c as = some w' →
    let r := cmdsInput (w.obj k) (!(w.obj c).bcast && (w.obj c).writers.contains k) ((w.obj c).readers.contains k) as
    InFed r.1 (w.obj k) (w'.obj k) ∧ (w'.obj c).readers.contains k = r.2 := by
  induction as with
  | nil =>
    intro w w' h _ _ ht
    simp only [World.acts, Option.some.injEq] at ht; subst ht
    exact ⟨.refl (h.oi k).cap, rfl⟩
  | cons a as ih =>
    intro w w' h hc hk ht
    simp only [World.acts, Option.bind_eq_some_iff] at ht
    obtain ⟨w1, h1, h2⟩ := ht
    obtain ⟨i1, kp⟩ := act_inv h env c (by simp) hc a h1
    have f1 := act_fed h env c k hc hk a h1
    obtain ⟨f2, e2⟩ := ih i1 (by rw [kp.kind]; exact hc) (by rw [kp.kind]; exact hk) h2
    rw [cmdsInput_congr f1.kind f1.conn] at f2 e2
    have key : (!(w1.obj c).bcast && (w1.obj c).writers.contains k) = (!(w.obj c).bcast && (w.obj c).writers.contains k) ∧
        (w1.obj c).readers.contains k = (if modeSwitch a && (!(w.obj c).bcast && (w.obj c).writers.contains k) then
          !(w.obj c).readers.contains k else (w.obj c).readers.contains k) := by
      rcases act_links h env c (by simp) hc a h1 with ⟨s, t⟩ | ⟨s, t⟩
      · rw [isSwitch_eq] at s
        refine ⟨by rw [t.bcast, t.wr], ?_⟩
        rw [s, Bool.true_and]
        rcases t.rd with ⟨b, r⟩ | ⟨b, con, q, r⟩
        · rw [b, r]; rfl
        · rw [b, q]
          by_cases e : k = con
          · subst e
            rcases r with ⟨r1, r2⟩ | ⟨r1, r2⟩ <;> rw [r1, r2] <;> simp
          · rcases r with ⟨r1, r2⟩ | ⟨r1, r2⟩ <;> rw [r1, r2] <;> simp [e]
      · rw [isSwitch_eq] at s
        rw [(t.loc c).bcast, (t.loc c).wr, (t.loc c).rd, s]
        exact ⟨rfl, by simp⟩
    rw [key.1, key.2] at f2 e2
    exact ⟨f1.trans f2, e2⟩

/-- What a console sends of its waiting bytes, and what is left. -/
theorem flush_console {w : World} (h : WInv w) (env : Env) (up : Bool) (k : Nat) (r : WriteRes) (hk : (w.obj k).kind ≠ .client) :
    ∃ n, sentTo k (w.flush env up k r).fx = sentTo k w.fx ++ (w.obj k).pend.take n ∧
      (((w.flush env up k r).obj k).gen = (w.obj k).gen ∧ ((w.flush env up k r).obj k).pend = (w.obj k).pend.drop n ∨
       ((w.flush env up k r).obj k).gen = (w.obj k).gen + 1 ∧ ((w.flush env up k r).obj k).pend = []) := by
  unfold World.flush
  dsimp only
  split
  · exact ⟨0, by simp, Or.inl ⟨rfl, rfl⟩⟩
  split
  · exact ⟨0, by simp, Or.inl ⟨rfl, rfl⟩⟩
  rename_i hf _
  refine ⟨r.count (w.obj k).pend.length, ?_, ?_⟩
  · split
    · rw [(shutdown_sameFx _ _ _ _).1, drained_fx, push_sentTo]
    · rw [drained_fx, push_sentTo]
  obtain ⟨d1, d2, d3, d4⟩ := drained_obj (w.push k (r.count (w.obj k).pend.length)) k
  rw [push_obj] at d1 d2 d3 d4
  have hw := (h.wstep (push_ws w k (r.count (w.obj k).pend.length))).wstep (drained_ws _ k)
  have dk : (((w.push k (r.count (w.obj k).pend.length)).drained k).obj k).kind = (w.obj k).kind := by
    rw [(drained_ws _ k).kp.kind, (push_ws _ _ _).kp.kind]
  generalize ((w.push k (r.count (w.obj k).pend.length)).drained k) = v at d1 d2 d3 d4 dk hw
  dsimp only at d1 d2 d3 d4
  split
  · right
    rcases shutdown_gen hw env up k (by rw [d4]; simpa using hf) with g | g
    · exact ⟨by rw [g.1, d3], g.2.1⟩
    · exact absurd (by rw [← dk]; exact g.1) hk
  · exact Or.inl ⟨d3, d1⟩

/-- What reading from a console does to its own input. -/
theorem read_console {w w' : World} (h : FInv w) (env : Env) (up : Bool) (k : Nat) (r : ReadRes) (wr : Option WriteRes)
    (hl : k ∈ w.live) (hk : (w.obj k).kind.isConsole = true) (hp : (w.obj k).pin = true ∨ (w.obj k).pout = true)
    (hlen : ∀ d, r = .data d → d.length ≤ 8191) (ht : w.read env up k r = some w') :
    (w'.obj k).gen = (w.obj k).gen ∧ (w'.obj k).pend = (if (w.obj k).eof then (w.obj k).pend else
        lastN queueCap ((w.obj k).pend ++ typed w k (.poll k up (some r) wr))) ∨
    (w'.obj k).gen = (w.obj k).gen + 1 ∧ (w'.obj k).pend = [] := by
  have hw := h.e.d.inv
  have hcap := (hw.oi k).cap
  have hnc := not_client_of_console hk
  have hfd : (w.obj k).fd = true := by
    cases hf : (w.obj k).fd with
    | true => rfl
    | false =>
      have := (hw.oi k).closed hf
      rcases hp with g | g
      · rw [this.1] at g; simp at g
      · rw [this.2] at g; simp at g
  have same : ∀ v : World, typed w k (.poll k up (some r) wr) = [] → (v.obj k).gen = (w.obj k).gen → (v.obj k).pend = (w.obj k).pend →
      (v.obj k).gen = (w.obj k).gen ∧ (v.obj k).pend = (if (w.obj k).eof then (w.obj k).pend else
        lastN queueCap ((w.obj k).pend ++ typed w k (.poll k up (some r) wr))) := by
    intro v e1 e2 e3
    refine ⟨e2, ?_⟩
    rw [e1, e3, List.append_nil, lastN_self _ _ hcap, ite_self]
  have hsd : ∀ v : World, WInv v → (v.obj k).fd = true → (v.obj k).gen = (w.obj k).gen → (v.obj k).kind ≠ .client →
      ((v.shutdown env up k).obj k).gen = (w.obj k).gen + 1 ∧ ((v.shutdown env up k).obj k).pend = [] := by
    intro v hv hf hg hc
    rcases shutdown_gen hv env up k hf with g | g
    · exact ⟨by rw [g.1, hg], g.2.1⟩
    · exact absurd g.1 hc
  have typ : ∀ d, r = .data d → typed w k (.poll k up (some r) wr) =
      if (w.obj k).kind = .telnet ∧ (w.obj k).conn = .up then telReplies (w.obj k) d else [] := by
    rintro d rfl
    unfold typed
    dsimp only
    rw [if_pos ⟨hl, hp⟩, if_neg hnc]
    by_cases g : (w.obj k).kind = .telnet ∧ (w.obj k).conn = .up
    · rw [if_pos g, if_pos ⟨rfl, g⟩]
    · rw [if_neg g, if_neg (fun x => g x.2)]
  unfold World.read at ht
  rw [if_neg (by simp [hfd])] at ht
  by_cases htel : (w.obj k).kind = .telnet ∧ (w.obj k).conn ≠ .up
  · rw [if_pos htel, Option.some.injEq] at ht
    subst ht
    refine Or.inl (same _ ?_ rfl rfl)
    cases r with
    | data d => rw [typ d rfl, if_neg (fun x => htel.2 x.2)]
    | _ => rfl
  rw [if_neg htel, if_neg (by intro g; rw [g] at hk; simp [OKind.isConsole] at hk)] at ht
  cases r with
  | again => simp only [Option.some.injEq] at ht; subst ht; exact Or.inl (same _ rfl rfl rfl)
  | err => simp only [Option.some.injEq] at ht; subst ht; exact Or.inr (hsd w hw hfd rfl hnc)
  | eof =>
    simp only [Option.some.injEq] at ht
    subst ht
    split
    · right
      have hws : WInv (w.mod k (fun o => { o with eof := true, pin := false })) := by
        have s1 : WStep w (w.mod k (fun o => { o with eof := true, pin := false })) := by
          refine .mod _ _ _ ⟨rfl, rfl, rfl, rfl, fun _ _ => rfl, fun ho => ⟨ho.cap, ho.susp, ?_⟩⟩
          intro hf; exact ⟨rfl, (ho.closed hf).2⟩
        exact hw.wstep s1
      exact hsd _ hws (by rw [World.mod_self]; exact hfd) (by rw [World.mod_self]) (by rw [World.mod_self]; exact hnc)
    · exact Or.inl (same _ rfl (by rw [World.mod_self]) (by rw [World.mod_self]))
  | data d =>
    left
    dsimp only at ht
    have hd := hlen d rfl
    rw [List.take_of_length_le (by rw [readBufSize_eq]; exact hd)] at ht
    by_cases hkt : (w.obj k).kind = .telnet
    · have hup : (w.obj k).conn = .up := by
        cases hh : decide ((w.obj k).conn = .up) with
        | true => exact of_decide_eq_true hh
        | false => exact absurd ⟨hkt, of_decide_eq_false hh⟩ htel
      simp only [hkt, Option.map_eq_some_iff] at ht
      obtain ⟨t, ht1, rfl⟩ := ht
      obtain ⟨t', e1, e2⟩ := tel_ok (h.x k hl).iac d
      rw [ht1, Option.some.injEq] at e1
      subst e1
      have hm : k ∉ ((w.mod k (fun o => ({ o with iac := t.iac }).write t.sent false)).obj k).readers := by
        rw [World.mod_self]; simpa using hw.l.not_self k
      rw [deliver_other env k _ hm, World.mod_self, show typed w k (.poll k up (some (.data d)) wr) = telReplies (w.obj k) d from by
        rw [typ d rfl, if_pos ⟨hkt, hup⟩]]
      have hr : telReplies (w.obj k) d = t.sent := by unfold telReplies; rw [e2]
      have hsl := telChunks_len e2
      have f := InFed.write { w.obj k with iac := t.iac } t.sent hcap (by unfold queueCap; omega)
      rw [hr]
      exact ⟨f.gen, f.pend⟩
    · have e : typed w k (.poll k up (some (.data d)) wr) = [] := by rw [typ d rfl, if_neg (fun x => hkt x.1)]
      split at ht
      · rename_i g; exact absurd g hnc
      · rename_i g; exact absurd g hkt
      · simp only [Option.some.injEq] at ht; subst ht
        refine same _ e ?_ ?_ <;> rw [deliver_other env k _ (hw.l.not_self k)]

theorem lastN_sublist (n : Nat) (l : List UInt8) : (lastN n l).Sublist l := List.drop_sublist _ _

/-- The bytes for `k` after a step: sent ones, then waiting ones. -/
def Fills (w w' : World) (k : Nat) (d : List UInt8) : Prop :=
  ∃ x, sentTo k w'.fx = sentTo k w.fx ++ x ∧ (x ++ (w'.obj k).pend).Sublist ((w.obj k).pend ++ d) ∧
    ((w'.obj k).gen = (w.obj k).gen → (w.obj k).eof = false → x ++ (w'.obj k).pend = lastN queueCap ((w.obj k).pend ++ d))

theorem Fills.fed {w w' : World} {k : Nat} {d : List UInt8} (hs : sentTo k w'.fx = sentTo k w.fx) (f : InFed d (w.obj k) (w'.obj k)) :
    Fills w w' k d := by
  refine ⟨[], by rw [hs, List.append_nil], ?_, fun _ he => ?_⟩
  · rw [List.nil_append, f.pend]
    split
    · exact List.sublist_append_left _ _
    · exact lastN_sublist _ _
  · rw [List.nil_append, f.pend, he, if_neg Bool.false_ne_true]

/-- What one step does to the input of a console. -/
theorem input_step {env : Env} {w w' : World} (h : FInv w) (s : Step) (hs : w.step env s = some w') (k : Nat)
    (hl : k ∈ w.live) (hk : (w.obj k).kind.isConsole = true)
    (hlen : ∀ i up d wr, s = .poll i up (some (.data d)) wr → d.length ≤ 8191) : Fills w w' k (typed w k s) := by
  have hw := h.e.d.inv
  have hcap := (hw.oi k).cap
  have hnc := not_client_of_console hk
  have x0 := h.x k hl
  have quietFx : (∀ up rd wr, s ≠ .poll k up rd (some wr)) → sentTo k w'.fx = sentTo k w.fx := by
    intro hn
    obtain ⟨l, e1, e2⟩ := step_sent env s hs
    rw [e1, sentTo_append, sentTo_none k l, List.append_nil]
    intro d hd
    obtain ⟨_, up, rd, wr, e⟩ := e2 k d hd
    exact hn up rd wr e
  by_cases ht : s.target = some k
  · cases s with
    | check => simp [Step.target] at ht
    | childExit => simp [Step.target] at ht
    | grant c n =>
      simp only [Step.target, Option.some.injEq] at ht; subst ht
      have hfx := quietFx (by intro _ _ _ e; cases e)
      simp only [World.step, Option.some.injEq] at hs
      subst hs
      refine .fed hfx ?_
      split
      · rw [if_pos hl]; exact .refl hcap
      · exact .refl hcap
    | connPend i =>
      simp only [Step.target, Option.some.injEq] at ht; subst ht
      have hfx := quietFx (by intro _ _ _ e; cases e)
      simp only [World.step, Option.some.injEq] at hs
      subst hs
      split
      · refine ⟨[], by simp, ?_, fun _ _ => ?_⟩
        · rw [World.mod_self]; simp [typed]
        · rw [World.mod_self]; simp [typed, lastN_self _ _ hcap]
      · exact .fed rfl (.refl hcap)
    | connDown i =>
      simp only [Step.target, Option.some.injEq] at ht; subst ht
      simp only [World.step, Option.some.injEq] at hs
      subst hs
      split
      · refine ⟨[], by simp, ?_, fun _ _ => ?_⟩
        · rw [World.mod_self]; simp [typed]
        · rw [World.mod_self]; simp [typed, lastN_self _ _ hcap]
      · exact .fed rfl (.refl hcap)
    | connFail i =>
      simp only [Step.target, Option.some.injEq] at ht; subst ht
      have hfx := quietFx (by intro _ _ _ e; cases e)
      simp only [World.step, Option.some.injEq] at hs
      subst hs
      refine .fed hfx ?_
      split
      · exact ((notify_step hw.l env i (.connFailed i) hk).pstep.touched i).fed hk hcap
      · exact .refl hcap
    | resetTimeout i =>
      simp only [Step.target, Option.some.injEq] at ht; subst ht
      have hfx := quietFx (by intro _ _ _ e; cases e)
      simp only [World.step, Option.some.injEq] at hs
      subst hs
      refine .fed hfx ?_
      split
      · split
        · rw [World.mod_self]; exact .same hcap rfl rfl rfl rfl rfl rfl
        · split
          · dsimp only
            rw [World.mod_self]; exact .same hcap rfl rfl rfl rfl rfl rfl
          · rw [World.mod_self]; exact .same hcap rfl rfl rfl rfl rfl rfl
      · exact .refl hcap
    | logOpen i ok =>
      simp only [Step.target, Option.some.injEq] at ht; subst ht
      simp only [World.step, Option.some.injEq] at hs
      rw [if_neg (by intro g; rw [g] at hk; simp [OKind.isConsole] at hk)] at hs
      subst hs
      exact .fed rfl (.refl hcap)
    | logStamp i =>
      simp only [Step.target, Option.some.injEq] at ht; subst ht
      simp only [World.step, Option.some.injEq] at hs
      rw [if_neg (by intro g; rw [g] at hk; simp [OKind.isConsole] at hk)] at hs
      subst hs
      exact .fed rfl (.refl hcap)
    | connUp i =>
      simp only [Step.target, Option.some.injEq] at ht; subst ht
      have hfx := quietFx (by intro _ _ _ e; cases e)
      simp only [World.step, Option.some.injEq, if_pos hl] at hs
      subst hs
      unfold World.connUp at hfx ⊢
      dsimp only at hfx ⊢
      rw [if_neg (by simp [hk])] at hfx ⊢
      by_cases hop : (w.obj i).fd = true ∧ ¬ (w.obj i).conn = .pending
      · rw [if_pos hop]
        have : typed w i (.connUp i) = [] := by
          unfold typed; dsimp only; rw [if_neg]
          rintro ⟨-, -, -, g | g⟩
          · rw [hop.1] at g; simp at g
          · exact hop.2 g
        rw [this]
        exact .fed rfl (.refl hcap)
      rw [if_neg hop] at hfx ⊢
      have hop' : (w.obj i).fd = false ∨ (w.obj i).conn = .pending := by
        cases hf : (w.obj i).fd with
        | false => exact Or.inl rfl
        | true =>
          right
          cases hh : decide ((w.obj i).conn = .pending) with
          | true => exact of_decide_eq_true hh
          | false => exact absurd ⟨hf, of_decide_eq_false hh⟩ hop
      have he : (w.obj i).eof = false := by
        cases hh : (w.obj i).eof with
        | false => rfl
        | true =>
          rcases hop' with g | g
          · have := x0.eofFd hh; rw [g] at this; simp at this
          · have := (x0.pending g).2; rw [hh] at this; simp at this
      have hsl : SL w (w.mod i (fun o => { o with fd := true, pin := true, conn := .up, eof := false })) := by
        refine ⟨fun j => ?_, rfl⟩
        rw [World.mod_obj]; split <;> exact ⟨rfl, rfl, rfl⟩
      have hv : ((w.mod i (fun o => { o with fd := true, pin := true, conn := .up, eof := false })).obj i) =
          { w.obj i with fd := true, pin := true, conn := .up, eof := false } := World.mod_self _ _ _
      generalize (w.mod i (fun o => { o with fd := true, pin := true, conn := .up, eof := false })) = v at hsl hfx hv ⊢
      have hk1 : (v.obj i).kind.isConsole = true := by rw [hv]; exact hk
      have f2 : InFed [] (v.obj i) ((if (w.obj i).kind = .test then v else v.notify env i (.connected i)).obj i) := by
        split
        · exact .refl (by rw [hv]; exact hcap)
        · exact ((notify_step (hw.l.same hsl) env i _ hk1).pstep.touched i).fed hk1 (by rw [hv]; exact hcap)
      generalize (if (w.obj i).kind = .test then v else v.notify env i (.connected i)) = u at f2 hfx ⊢
      have hup : (u.obj i).pend = (w.obj i).pend ∧ (u.obj i).gen = (w.obj i).gen ∧ (u.obj i).eof = false := by
        refine ⟨?_, by rw [f2.gen, hv], by rw [f2.eof, hv]⟩
        rw [f2.pend, hv]
        simp [lastN_self _ _ hcap]
      have ty : typed w i (.connUp i) = if (w.obj i).kind = .telnet then telHello else [] := by
        unfold typed; dsimp only
        by_cases g : (w.obj i).kind = .telnet
        · rw [if_pos g, if_pos ⟨rfl, hl, g, hop'⟩]
        · rw [if_neg g, if_neg (fun x => g x.2.2.1)]
      rw [ty]
      split
      · rename_i g
        rw [if_pos g] at hfx
        have f3 := InFed.write (u.obj i) telHello (by rw [hup.1]; exact hcap) (by decide)
        have hp3 : ((u.obj i).write telHello false).pend = lastN queueCap ((w.obj i).pend ++ telHello) := by
          rw [f3.pend, hup.2.2, hup.1, if_neg Bool.false_ne_true]
        refine ⟨[], by rw [hfx, List.append_nil], ?_, fun _ _ => ?_⟩
        · rw [World.mod_self, List.nil_append, hp3]; exact lastN_sublist _ _
        · rw [World.mod_self, List.nil_append, hp3]
      · rename_i g
        rw [if_neg g] at hfx
        refine ⟨[], by rw [hfx, List.append_nil], ?_, fun _ _ => ?_⟩
        · rw [List.nil_append, hup.1, List.append_nil]; exact List.Sublist.refl _
        · rw [List.nil_append, hup.1, List.append_nil, lastN_self _ _ hcap]
    | poll i up rd wr =>
      simp only [Step.target, Option.some.injEq] at ht; subst ht
      simp only [World.step] at hs
      by_cases hpp : (w.obj i).pin = true ∨ (w.obj i).pout = true
      case neg =>
        rw [if_pos (Or.inr (by simpa using hpp))] at hs
        simp only [Option.some.injEq] at hs; subst hs
        have : typed w i (.poll i up rd wr) = [] := by
          unfold typed
          split
          · rename_i heq
            simp only [Step.poll.injEq] at heq
            obtain ⟨rfl, -, -, -⟩ := heq
            rw [if_neg (fun g => hpp g.2)]
          · rename_i heq; cases heq
          · rfl
        rw [this]; exact .fed rfl (.refl hcap)
      rw [if_neg (by rcases hpp with g | g <;> simp [hl, g])] at hs
      simp only [Option.map_eq_some_iff] at hs
      obtain ⟨w1, h1, h2⟩ := hs
      have i1 : WInv w1 ∧ (w1.obj i).kind ≠ .client ∧ NoSent w w1 := by
        cases rd with
        | none => simp only [Option.some.injEq] at h1; subst h1; exact ⟨hw, hnc, .refl _⟩
        | some r =>
          obtain ⟨a, b⟩ := read_inv hw env up i r h1
          exact ⟨a, by rw [b.kind]; exact hnc, read_ns env up i r h1⟩
      have r1 : (w1.obj i).gen = (w.obj i).gen ∧ (w1.obj i).pend = (if (w.obj i).eof then (w.obj i).pend else
          lastN queueCap ((w.obj i).pend ++ typed w i (.poll i up rd wr))) ∨
          (w1.obj i).gen = (w.obj i).gen + 1 ∧ (w1.obj i).pend = [] := by
        cases rd with
        | none =>
          simp only [Option.some.injEq] at h1; subst h1
          refine Or.inl ⟨rfl, ?_⟩
          show _ = if (w.obj i).eof = true then (w.obj i).pend else lastN queueCap ((w.obj i).pend ++ [])
          rw [List.append_nil, lastN_self _ _ hcap, ite_self]
        | some r => exact read_console h env up i r wr hl hk hpp (by rintro d rfl; exact hlen i up d wr rfl) h1
      have fin : ∃ n, sentTo i w'.fx = sentTo i w1.fx ++ (w1.obj i).pend.take n ∧
          ((w'.obj i).gen = (w1.obj i).gen ∧ (w'.obj i).pend = (w1.obj i).pend.drop n ∨
           (w'.obj i).gen = (w1.obj i).gen + 1 ∧ (w'.obj i).pend = []) := by
        split at h2
        · subst h2; exact ⟨0, by simp, Or.inl ⟨rfl, rfl⟩⟩
        split at h2
        · subst h2; exact ⟨0, by simp, Or.inl ⟨rfl, rfl⟩⟩
        · subst h2; exact flush_console i1.1 env up i _ i1.2.1
      obtain ⟨n, s1, s2⟩ := fin
      rw [i1.2.2.sentTo i] at s1
      have sub1 : (w1.obj i).pend.Sublist ((w.obj i).pend ++ typed w i (.poll i up rd wr)) := by
        rcases r1 with ⟨_, e⟩ | ⟨_, e⟩
        · rw [e]; split
          · exact List.sublist_append_left _ _
          · exact lastN_sublist _ _
        · rw [e]; exact List.nil_sublist _
      refine ⟨_, s1, ?_, fun hg he => ?_⟩
      · rcases s2 with ⟨_, e⟩ | ⟨_, e⟩
        · rw [e, List.take_append_drop]; exact sub1
        · rw [e, List.append_nil]; exact (List.take_sublist _ _).trans sub1
      · rcases r1 with ⟨g1, e⟩ | ⟨g1, e⟩
        · rcases s2 with ⟨g2, e2⟩ | ⟨g2, e2⟩
          · rw [e2, List.take_append_drop, e, he, if_neg Bool.false_ne_true]
          · omega
        · omega
  · have hfx : sentTo k w'.fx = sentTo k w.fx := quietFx (by rintro up rd wr rfl; exact ht rfl)
    have plain : dataTo w s k = false → typed w k s = [] → Fills w w' k (typed w k s) := by
      intro hd he
      rw [he]
      exact .fed hfx ((step_ext h.e.d env s hs k ht).fed hd hk hcap)
    cases s with
    | poll i up rd wr =>
      have hki : k ≠ i := by rintro rfl; exact ht rfl
      cases rd with
      | none => exact plain rfl rfl
      | some r =>
        cases r with
        | eof => exact plain rfl rfl
        | again => exact plain rfl rfl
        | err => exact plain rfl rfl
        | data d =>
          have hd := hlen i up d wr rfl
          by_cases hc : (w.obj i).kind = .client
          case neg =>
            apply plain
            · unfold dataTo
              dsimp only
              rw [if_neg hc]
              have : k ∉ (w.obj i).readers := by
                intro g
                rcases hw.l.kinds i k g with q | q
                · exact hc q.1
                · rw [hk] at q; simp at q
              simpa using this
            · unfold typed
              dsimp only
              rw [if_neg hc]
              split
              · rw [if_neg (fun g => hki g.1.symm)]
              · rfl
          by_cases hpp : i ∈ w.live ∧ ((w.obj i).pin = true ∨ (w.obj i).pout = true)
          case neg =>
            have ty : typed w k (.poll i up (some (.data d)) wr) = [] := by
              unfold typed; dsimp only; rw [if_neg hpp]
            rw [ty]
            simp only [World.step] at hs
            rw [if_pos (by
              by_cases q : i ∈ w.live
              · right; have := fun g => hpp ⟨q, g⟩; simpa using this
              · exact Or.inl q)] at hs
            simp only [Option.some.injEq] at hs; subst hs
            exact .fed rfl (.refl hcap)
          obtain ⟨hil, hpp⟩ := hpp
          have ty : typed w k (.poll i up (some (.data d)) wr) =
              (cmdsInput (w.obj k) (!(w.obj i).bcast && (w.obj i).writers.contains k) ((w.obj i).readers.contains k)
                (wireCommands (w.obj i).gotEscape d)).1 ++
              (if (cmdsInput (w.obj k) (!(w.obj i).bcast && (w.obj i).writers.contains k) ((w.obj i).readers.contains k)
                (wireCommands (w.obj i).gotEscape d)).2 then wireData (w.obj i).gotEscape d else []) := by
            unfold typed
            dsimp only
            rw [if_pos ⟨hil, hpp⟩, if_pos hc]
          rw [ty]
          simp only [World.step] at hs
          rw [if_neg (by rcases hpp with g | g <;> simp [hil, g])] at hs
          simp only [Option.map_eq_some_iff] at hs
          obtain ⟨w1, h1, h2⟩ := hs
          have hr1 := h1
          have i1 := read_inv hw env up i (.data d) h1
          have ci := h.e.cl i hil hc
          unfold World.read at h1
          rw [if_neg (by simp [ci.fd]), if_neg (by simp [hc]), if_neg (by rw [hc]; simp)] at h1
          simp only [hc, Option.map_eq_some_iff] at h1
          rw [List.take_of_length_le (by rw [readBufSize_eq]; exact hd)] at h1
          obtain ⟨u1, u2, u3⟩ := unesc_data (w.obj i).gotEscape d
          rw [u1, u2] at h1
          obtain ⟨v, hv, rfl⟩ := h1
          obtain ⟨f1, m1⟩ := acts_fed env i k _ hw hc hk hv
          obtain ⟨vi, vk⟩ := acts_inv env i none (by simp) _ hw hc hv
          generalize cmdsInput (w.obj k) (!(w.obj i).bcast && (w.obj i).writers.contains k) ((w.obj i).readers.contains k)
                (wireCommands (w.obj i).gotEscape d) = r at f1 m1 ⊢
          have hdl : (wireData (w.obj i).gotEscape d).length ≤ queueCap := by
            have : ∀ (l : List UInt8) (e : Bool), (wireData e l).length ≤ l.length := by
              intro l
              induction l with
              | nil => intro e; simp [wireData]
              | cons b l ih =>
                intro e
                unfold wireData
                split
                · have := ih false; split <;> simp <;> omega
                · have := ih (decide (b = 0xFF)); split <;> simp <;> omega
            have := this d (w.obj i).gotEscape
            unfold queueCap; omega
          generalize wireData (w.obj i).gotEscape d = e at hdl i1 h2 hr1 ⊢
          have sl : SL v (v.mod i (fun o => { o with gotEscape := (processClientEscapes (w.obj i).gotEscape d).gotEscape })) := by
            refine ⟨fun j => ?_, rfl⟩
            rw [World.mod_obj]; split <;> exact ⟨rfl, rfl, rfl⟩
          have f2 : InFed (if r.2 then e else []) (v.obj k)
              (((v.mod i (fun o => { o with gotEscape := (processClientEscapes (w.obj i).gotEscape d).gotEscape })).deliver env i e).obj k) := by
            have hvc := f1.cap hcap
            by_cases h0 : e = []
            · subst h0
              rw [deliver_nil, World.mod_ne _ _ hki, ite_self]
              exact .refl hvc
            · rw [(deliver_exact (vi.l.same sl) env i e h0).1, World.mod_self, World.mod_ne _ _ hki]
              dsimp only
              by_cases q : k ∈ (v.obj i).readers
              · rw [if_pos q, if_pos (by rw [← m1]; simpa using q), if_neg (by rw [vk.kind]; intro g; rw [g] at hk; simp [OKind.isConsole] at hk)]
                exact .write _ _ hvc hdl
              · rw [if_neg q, if_neg (by rw [← m1]; simpa using q)]
                exact .refl hvc
          generalize ((v.mod i (fun o => { o with gotEscape := (processClientEscapes (w.obj i).gotEscape d).gotEscape })).deliver env i e) = w2 at *
          have f3 : InFed [] (w2.obj k) (w'.obj k) := by
            have c2 := f2.cap (f1.cap hcap)
            have k2 : (w2.obj k).kind.isConsole = true := by rw [f2.kind, f1.kind]; exact hk
            split at h2
            · subst h2; exact .refl c2
            split at h2
            · subst h2; exact .refl c2
            · subst h2
              exact (flush_estep i1.1 env up i _ (fun _ => false) k hki).fed rfl k2 c2
          have f := (f1.trans f2).trans f3
          rw [List.append_nil] at f
          exact .fed hfx f
    | connUp i =>
      refine plain rfl ?_
      unfold typed; dsimp only; rw [if_neg]
      rintro ⟨rfl, -⟩
      exact ht rfl
    | _ => exact plain rfl rfl

end Conman
