import Verif.Lemma.WorldScreen
import Verif.Spec.Awake

/-
Output that waits is written when the other side is ready: helper lemmas for C95.
-/
namespace Conman
open Spec

theorem enq_lastN (q d : List UInt8) : ∃ e, enq q d = lastN queueCap (q ++ e) := ⟨_, rfl⟩

theorem lastN_ne_nil {a d : List UInt8} (h : a ≠ []) : lastN queueCap (a ++ d) ≠ [] := by
  have h1 : 0 < a.length := List.length_pos_iff.2 h
  have h2 : (lastN queueCap (a ++ d)).length ≠ 0 := by
    unfold lastN; rw [List.length_drop, List.length_append]
    unfold queueCap; omega
  intro e; rw [e] at h2; exact h2 rfl

/-- An object gets more bytes to send; nothing else that matters here changes. -/
structure Grow (o o' : Obj) : Prop where
  kind : o'.kind = o.kind
  fd : o'.fd = o.fd
  conn : o'.conn = o.conn
  cap : o.pend.length ≤ queueCap → o'.pend.length ≤ queueCap
  pend : o.pend.length ≤ queueCap → ∃ d, o'.pend = lastN queueCap (o.pend ++ d)
  aw : o.awake → o'.awake

theorem Grow.same {o o' : Obj} (h1 : o'.kind = o.kind) (h2 : o'.fd = o.fd) (h3 : o'.conn = o.conn) (h4 : o'.pend = o.pend)
    (h5 : o'.pout = o.pout) (h6 : o'.suspend = o.suspend) : Grow o o' :=
  ⟨h1, h2, h3, fun h => by rw [h4]; exact h, fun h => ⟨[], by rw [h4, List.append_nil, lastN_self _ _ h]⟩,
    fun h => by unfold Obj.awake at h ⊢; rw [h1, h2, h4, h5, h6]; exact h⟩

theorem Grow.refl (o : Obj) : Grow o o := .same rfl rfl rfl rfl rfl rfl

theorem Grow.trans {a b c : Obj} (h : Grow a b) (h' : Grow b c) : Grow a c := by
  refine ⟨by rw [h'.kind, h.kind], by rw [h'.fd, h.fd], by rw [h'.conn, h.conn], fun x => h'.cap (h.cap x), fun x => ?_,
    fun x => h'.aw (h.aw x)⟩
  obtain ⟨d, e⟩ := h.pend x
  obtain ⟨d', e'⟩ := h'.pend (h.cap x)
  exact ⟨d ++ d', by rw [e', e, lastN_append_lastN, List.append_assoc]⟩

theorem Grow.write (o : Obj) (d : List UInt8) (b : Bool) : Grow o (o.write d b) := by
  rcases o.write_cases d b with e | ⟨_, e⟩
  · rw [e]; exact .refl o
  · rw [e]
    refine ⟨rfl, rfl, rfl, fun _ => by dsimp only; exact enq_length o.pend d, fun _ => by dsimp only; exact enq_lastN o.pend d, fun _ hf _ => ?_⟩
    have hf : o.fd = true := hf
    dsimp only
    by_cases hc : o.kind = .client ∧ o.suspend = true
    · exact Or.inr hc
    · left
      rw [hf]
      by_cases hk : o.kind = .client
      · have : o.suspend = false := by simpa [hk] using hc
        simp [this]
      · simp [hk]

theorem Passive.grow {env : Env} {o o' : Obj} (h : Passive env o o') : Grow o o' := by
  induction h with
  | refl => exact .refl _
  | trans _ _ h1 h2 => exact h1.trans h2
  | info => exact .write _ _ _
  | links => exact .same rfl rfl rfl rfl rfl rfl
  | orphan => exact .same rfl rfl rfl rfl rfl rfl

theorem Ext.grow {env : Env} {b : Bool} {o o' : Obj} (h : Ext env b o o') : Grow o o' := by
  induction h with
  | refl => exact .refl _
  | trans _ _ h1 h2 => exact h1.trans h2
  | pass p => exact p.grow
  | reset => exact .same rfl rfl rfl rfl rfl rfl
  | data => exact .write _ _ _
  | log => exact .same rfl rfl rfl rfl rfl rfl

theorem COwn.grow {env : Env} {b p : Bool} {o o' : Obj} (h : COwn env b p o o') : p = false → o.kind = .client → Grow o o' := by
  induction h with
  | refl => exact fun _ _ => .refl _
  | trans _ _ h1 h2 => exact fun hp hk => (h1 hp hk).trans (h2 hp (by rw [(h1 hp hk).kind]; exact hk))
  | pass p => exact fun _ _ => p.grow
  | data => exact fun _ _ => .write _ _ _
  | quiet => exact fun _ _ => .same rfl rfl rfl rfl rfl rfl
  | flags => exact fun _ _ => .same rfl rfl rfl rfl rfl rfl
  | susp o =>
    intro _ hk
    refine ⟨rfl, rfl, rfl, id, fun h => ⟨[], by rw [List.append_nil, lastN_self _ _ h]⟩, fun _ hf _ => ?_⟩
    have hf : o.fd = true := hf
    dsimp only
    cases hs : o.suspend with
    | true => left; rw [hf]; rfl
    | false => right; exact ⟨hk, rfl⟩
  | eofRead => exact fun _ _ => .same rfl rfl rfl rfl rfl rfl
  | push _ _ h => intro hp; rw [h] at hp; simp at hp
  | drain o h =>
    intro _ _
    refine ⟨rfl, rfl, rfl, id, fun h => ⟨[], by rw [List.append_nil, lastN_self _ _ h]⟩, fun _ _ hp => absurd h hp⟩

theorem awake_nil {o : Obj} (h : o.pend = []) : o.awake := fun _ hp => absurd h hp

/-- What a read does to its object. -/
theorem read_grow {w w' : World} (h : WInv w) (env : Env) (up : Bool) (i : Nat) (r : ReadRes)
    (ht : w.read env up i r = some w') :
    i ∉ w'.live ∨ ((w'.obj i).gen = (w.obj i).gen ∧ Grow (w.obj i) (w'.obj i)) ∨
      ((w'.obj i).gen = (w.obj i).gen + 1 ∧ (w'.obj i).pend = []) := by
  by_cases hk : (w.obj i).kind = .client
  · rcases read_cown h env up i r hk ht with g | g
    · exact Or.inl g
    · exact Or.inr (Or.inl ⟨g.gen, g.grow rfl hk⟩)
  right
  have sh : ∀ v : World, WInv v → (v.obj i).fd = true → (v.obj i).gen = (w.obj i).gen → (v.obj i).kind ≠ .client →
      ((v.shutdown env up i).obj i).gen = (w.obj i).gen + 1 ∧ ((v.shutdown env up i).obj i).pend = [] := by
    intro v hv hf hg hkv
    rcases shutdown_gen hv env up i hf with g | g
    · exact ⟨by rw [g.1, hg], g.2.1⟩
    · exact absurd g.1 hkv
  unfold World.read at ht
  split at ht
  · simp only [Option.some.injEq] at ht; subst ht; exact Or.inl ⟨rfl, .refl _⟩
  rename_i hfd
  have hfd : (w.obj i).fd = true := by simpa using hfd
  split at ht
  · simp only [Option.some.injEq] at ht; subst ht; exact Or.inl ⟨rfl, .refl _⟩
  have s1 : WStep w (w.mod i (fun o => { o with eof := true, pin := false })) := by
    refine .mod _ _ _ ⟨rfl, rfl, rfl, rfl, fun _ _ => rfl, fun ho => ⟨ho.cap, ho.susp, ?_⟩⟩
    intro hf; exact ⟨rfl, (ho.closed hf).2⟩
  split at ht
  · simp only [Option.some.injEq] at ht; subst ht; exact Or.inl ⟨rfl, .refl _⟩
  · simp only [Option.some.injEq] at ht; subst ht; exact Or.inr (sh w h hfd rfl hk)
  · simp only [Option.some.injEq] at ht; subst ht
    split
    · exact Or.inr (sh _ (h.wstep s1) (by rw [World.mod_self]; exact hfd) (by rw [World.mod_self]) (by rw [World.mod_self]; exact hk))
    · left; rw [World.mod_self]; exact ⟨rfl, .same rfl rfl rfl rfl rfl rfl⟩
  · rename_i d0 _
    left
    dsimp only at ht
    split at ht
    · rename_i hc; exact absurd hc hk
    · simp only [Option.map_eq_some_iff] at ht
      obtain ⟨t, h1, rfl⟩ := ht
      have hm : i ∉ ((w.mod i (fun o => ({ o with iac := t.iac }).write t.sent false)).obj i).readers := by
        rw [World.mod_self]; simpa using h.l.not_self i
      rw [deliver_other env i _ hm, World.mod_self]
      refine ⟨by rw [Obj.write_gen], Grow.trans (b := { w.obj i with iac := t.iac }) (.same rfl rfl rfl rfl rfl rfl) (.write _ _ _)⟩
    · simp only [Option.some.injEq] at ht; subst ht
      rw [deliver_other env i _ (h.l.not_self i)]; exact ⟨rfl, .refl _⟩

/-- What a flush does to its object. -/
theorem flush_grow {w : World} (h : WInv w) (env : Env) (up : Bool) (i : Nat) (r : WriteRes) :
    ∃ x, sentTo i (w.flush env up i r).fx = sentTo i w.fx ++ x ∧
      (((w.flush env up i r).obj i).gen = (w.obj i).gen ∧ ((w.flush env up i r).obj i).kind = (w.obj i).kind ∧
        ((w.flush env up i r).obj i).fd = (w.obj i).fd ∧ x ++ ((w.flush env up i r).obj i).pend = (w.obj i).pend ∧
        ((w.obj i).awake → ((w.flush env up i r).obj i).awake) ∧
        (∀ n, r = .accept n → 0 < n → (w.obj i).fd = true → ¬ ((w.obj i).kind = .telnet ∧ (w.obj i).conn = .pending) →
          (w.obj i).pend ≠ [] → x ≠ []) ∨
       ((w.flush env up i r).obj i).gen = (w.obj i).gen + 1 ∧
        (((w.flush env up i r).obj i).pend = [] ∨ i ∉ (w.flush env up i r).live)) := by
  unfold World.flush
  dsimp only
  by_cases hf : (w.obj i).fd = false
  · rw [if_pos hf]
    exact ⟨[], by simp, Or.inl ⟨rfl, rfl, rfl, rfl, id, fun n _ _ hf' => by rw [hf] at hf'; simp at hf'⟩⟩
  rw [if_neg hf]
  have hf : (w.obj i).fd = true := by simpa using hf
  by_cases hp : (w.obj i).kind = .telnet ∧ (w.obj i).conn = .pending
  · rw [if_pos hp]
    exact ⟨[], by simp, Or.inl ⟨rfl, rfl, rfl, rfl, id, fun n _ _ _ hp' => absurd hp hp'⟩⟩
  rw [if_neg hp]
  refine ⟨(w.obj i).pend.take (r.count (w.obj i).pend.length), ?_, ?_⟩
  · split
    · rw [(shutdown_sameFx _ _ _ _).1, drained_fx, push_sentTo]
    · rw [drained_fx, push_sentTo]
  have hw := (h.wstep (push_ws w i (r.count (w.obj i).pend.length))).wstep (drained_ws _ i)
  obtain ⟨d1, d2, d3, d4⟩ := drained_obj (w.push i (r.count (w.obj i).pend.length)) i
  rw [push_obj] at d1 d2 d3 d4
  have dk : (((w.push i (r.count (w.obj i).pend.length)).drained i).obj i).kind = (w.obj i).kind := by
    rw [(drained_ws _ i).kp.kind, (push_ws _ _ _).kp.kind]
  have da : (w.obj i).awake → (((w.push i (r.count (w.obj i).pend.length)).drained i).obj i).awake := by
    intro ha
    unfold World.drained
    split
    · rename_i hn
      rw [World.mod_self]; exact awake_nil hn
    · rw [push_obj]
      intro _ hn
      refine ha hf (fun e => ?_)
      rw [e] at hn; exact hn (List.drop_nil)
  generalize ((w.push i (r.count (w.obj i).pend.length)).drained i) = v at d1 d2 d3 d4 dk da hw ⊢
  dsimp only at d1 d2 d3 d4
  split
  · right
    rcases shutdown_gen hw env up i (by rw [d4]; exact hf) with g | g
    · exact ⟨by rw [g.1, d3], Or.inl g.2.1⟩
    · exact ⟨by rw [g.2.2, d3], Or.inr g.2.1⟩
  · left
    refine ⟨d3, dk, d4, by rw [d1, List.take_append_drop], da, ?_⟩
    rintro n rfl hn _ _ hne e
    have h1 : 0 < (w.obj i).pend.length := List.length_pos_iff.2 hne
    rcases List.take_eq_nil_iff.1 e with g | g
    · simp only [WriteRes.count] at g; omega
    · exact hne g

/-- What a step does to an object that stays. -/
structure FlowStep (env : Env) (w w' : World) (i : Nat) (s : Step) : Prop where
  kind : (w'.obj i).kind = (w.obj i).kind
  aw : ((w.obj i).kind.greets = true ∨ (w.obj i).fd = true ∨ s ≠ .connUp i) → (w.obj i).awake → (w'.obj i).awake
  flow : (w'.obj i).gen = (w.obj i).gen → ((w.obj i).kind.greets = true ∨ (w.obj i).fd = true → (w'.obj i).kind.greets = true ∨ (w'.obj i).fd = true) ∧
    ∃ d x, sentTo i w'.fx = sentTo i w.fx ++ x ∧ x ++ (w'.obj i).pend = lastN queueCap ((w.obj i).pend ++ d) ∧
      (acceptsOf i s = true → (w.obj i).takesOutput = true → (w.obj i).pout = true → (w.obj i).pend ≠ [] → x ≠ [])

theorem flow_step {env : Env} {w w' : World} (h : FInv w) (s : Step) (hs : w.step env s = some w') (i : Nat)
    (htxt : ∀ k, env.txt (.logOpened i) k ≠ []) (hl : i ∈ w.live) (hl' : i ∈ w'.live) : FlowStep env w w' i s := by
  have x0 := h.x i hl
  have hcap := (h.e.d.inv.oi i).cap
  have hk' := (step_live h.e.d s hs).2.2 i hl
  have hfx : (∀ up rd wr, s ≠ .poll i up rd (some wr)) → sentTo i w'.fx = sentTo i w.fx := by
    intro hn
    obtain ⟨l, e1, e2⟩ := step_sent env s hs
    rw [e1, sentTo_append, sentTo_none i l, List.append_nil]
    intro d hd
    obtain ⟨_, up, rd, wr, e⟩ := e2 i d hd
    exact hn up rd wr e
  have hacc : (∀ up rd wr, s ≠ .poll i up rd (some wr)) → acceptsOf i s = false := by
    intro hn
    unfold acceptsOf
    split
    · rename_i j up rd n
      cases e : decide (j = i) with
      | false => rfl
      | true => exact absurd (by rw [of_decide_eq_true e]) (hn up rd (.accept n))
    · rfl
  have mk : (∀ up rd wr, s ≠ .poll i up rd (some wr)) → Grow (w.obj i) (w'.obj i) → FlowStep env w w' i s := by
    intro hn g
    obtain ⟨d, e⟩ := g.pend hcap
    exact ⟨hk', fun _ => g.aw, fun _ => ⟨by rw [g.kind, g.fd]; exact id, d, [], by rw [hfx hn, List.append_nil], e,
      fun ha => by rw [hacc hn] at ha; simp at ha⟩⟩
  by_cases ht : s.target = some i
  case neg => exact mk (by rintro up rd wr rfl; exact ht rfl) (step_ext h.e.d env s hs i ht).grow
  by_cases hp : ∃ up rd wr, s = .poll i up rd wr
  · obtain ⟨up, rd, wr, rfl⟩ := hp
    clear mk hacc
    simp only [World.step] at hs
    split at hs
    · rename_i hc
      simp only [Option.some.injEq] at hs; subst hs
      refine ⟨rfl, fun _ => id, fun _ => ⟨id, [], [], by simp, by rw [List.append_nil, lastN_self _ _ hcap]; rfl, fun _ _ ho => ?_⟩⟩
      rcases hc with hc | hc
      · exact absurd hl hc
      · rw [hc.2] at ho; simp at ho
    simp only [Option.map_eq_some_iff] at hs
    obtain ⟨w1, h1, h2⟩ := hs
    by_cases hl1 : i ∈ w1.live
    case neg => rw [if_pos hl1] at h2; subst h2; exact absurd hl' hl1
    rw [if_neg (by simp [hl1])] at h2
    have n1 : NoSent w w1 := by
      cases rd with
      | none => simp only [Option.some.injEq] at h1; subst h1; exact .refl _
      | some r => exact read_ns env up i r h1
    have i1 : WInv w1 ∧ (((w1.obj i).gen = (w.obj i).gen ∧ Grow (w.obj i) (w1.obj i)) ∨
        ((w1.obj i).gen = (w.obj i).gen + 1 ∧ (w1.obj i).pend = [])) := by
      cases rd with
      | none => simp only [Option.some.injEq] at h1; subst h1; exact ⟨h.e.d.inv, Or.inl ⟨rfl, .refl _⟩⟩
      | some r =>
        refine ⟨(read_inv h.e.d.inv env up i r h1).1, ?_⟩
        rcases read_grow h.e.d.inv env up i r h1 with g | g
        · exact absurd hl1 g
        · exact g
    obtain ⟨i1, i2⟩ := i1
    have aw1 : (w.obj i).awake → (w1.obj i).awake := by
      rcases i2 with g | g
      · exact g.2.aw
      · exact fun _ => awake_nil g.2
    split at h2
    · rename_i hw
      subst h2
      refine ⟨hk', fun _ => aw1, fun hg => ?_⟩
      rcases i2 with g | g
      · obtain ⟨d, e⟩ := g.2.pend hcap
        refine ⟨by rw [g.2.kind, g.2.fd]; exact id, d, [], by rw [n1.sentTo i, List.append_nil], e, fun ha _ ho => ?_⟩
        rw [if_pos ho] at hw
        rw [hw] at ha; simp [acceptsOf] at ha
      · omega
    · rename_i r hw
      have hwr : wr = some r := by
        split at hw
        · exact hw
        · simp at hw
      subst h2
      obtain ⟨x, f1, f2⟩ := flush_grow i1 env up i r
      refine ⟨hk', fun _ ha => ?_, fun hg => ?_⟩
      · rcases f2 with g | g
        · exact g.2.2.2.2.1 (aw1 ha)
        · rcases g.2 with g | g
          · exact awake_nil g
          · exact absurd hl' g
      · have m := flush_mono i1 env up i r
        rcases i2 with g | g
        case inr => omega
        rcases f2 with g' | g'
        case inr => omega
        obtain ⟨d, e⟩ := g.2.pend hcap
        refine ⟨by rw [g'.2.1, g'.2.2.1, g.2.kind, g.2.fd]; exact id, d, x, by rw [f1, n1.sentTo i], by rw [g'.2.2.2.1, e], ?_⟩
        intro ha hto _ hne
        simp only [Obj.takesOutput, Bool.and_eq_true, Bool.not_eq_true', Bool.and_eq_false_iff, decide_eq_false_iff_not] at hto
        rw [hwr] at ha
        cases r with
        | err => simp [acceptsOf] at ha
        | accept n =>
          simp only [acceptsOf, Bool.and_eq_true, decide_eq_true_eq] at ha
          refine g'.2.2.2.2.2 n rfl ha.2 (by rw [g.2.fd]; exact hto.1.1) ?_ (by rw [e]; exact lastN_ne_nil hne)
          rw [g.2.kind, g.2.conn]
          rintro ⟨a, b⟩
          rcases hto.2 with q | q
          · exact q a
          · exact q b
  have hnp : ∀ up rd wr, s ≠ .poll i up rd (some wr) := fun up rd wr e => hp ⟨up, rd, some wr, e⟩
  have mk' := mk hnp
  -- nothing leaves; what waits stays
  have keep : ∀ d, (w'.obj i).pend = lastN queueCap ((w.obj i).pend ++ d) → ((w.obj i).kind.greets = true ∨ (w'.obj i).fd = true) →
      (((w.obj i).kind.greets = true ∨ (w.obj i).fd = true ∨ s ≠ .connUp i) → (w.obj i).awake → (w'.obj i).awake) → FlowStep env w w' i s := by
    intro d hd hg ha
    exact ⟨hk', ha, fun _ => ⟨fun _ => by rw [hk']; exact hg, d, [], by rw [hfx hnp, List.append_nil], hd,
      fun hc => by rw [hacc hnp] at hc; simp at hc⟩⟩
  cases s with
  | check => simp [Step.target] at ht
  | childExit => simp [Step.target] at ht
  | poll j up rd wr =>
    simp only [Step.target, Option.some.injEq] at ht; subst ht
    exact absurd ⟨_, _, _, rfl⟩ hp
  | grant c k =>
    simp only [Step.target, Option.some.injEq] at ht; subst ht
    simp only [World.step, Option.some.injEq] at hs; subst hs
    apply mk'
    split
    · rw [if_pos hl]; exact .refl _
    · exact .refl _
  | connUp j =>
    simp only [Step.target, Option.some.injEq] at ht; subst ht
    simp only [World.step, Option.some.injEq, if_pos hl] at hs; subst hs
    by_cases hc : (w.obj j).kind.isConsole = false
    · apply mk'; unfold World.connUp; dsimp only; rw [if_pos hc]; exact .refl _
    by_cases hn : (w.obj j).fd = true ∧ ¬ (w.obj j).conn = .pending
    · apply mk'; unfold World.connUp; dsimp only; rw [if_neg hc, if_pos hn]; exact .refl _
    have hc' : (w.obj j).kind.isConsole = true := by simpa using hc
    have key : ∃ v : Obj, Passive env { w.obj j with fd := true, pin := true, conn := .up, eof := false } v ∧
        (w.connUp env j).obj j = (if (w.obj j).kind = .telnet then v.write telHello false else v) := by
      unfold World.connUp; dsimp only; rw [if_neg hc, if_neg hn]
      have hsl : SL w (w.mod j (fun o => { o with fd := true, pin := true, conn := .up, eof := false })) := by
        refine ⟨fun j => ?_, rfl⟩
        rw [World.mod_obj]; split <;> exact ⟨rfl, rfl, rfl⟩
      have hg : (w.mod j (fun o => { o with fd := true, pin := true, conn := .up, eof := false })).obj j =
          { w.obj j with fd := true, pin := true, conn := .up, eof := false } := by rw [World.mod_self]
      generalize (w.mod j (fun o => { o with fd := true, pin := true, conn := .up, eof := false })) = v at hg hsl ⊢
      have x2 : Passive env { w.obj j with fd := true, pin := true, conn := .up, eof := false }
          ((if (w.obj j).kind = .test then v else v.notify env j (.connected j)).obj j) := by
        split
        · rw [hg]; exact .refl _
        · rw [← hg]; exact (notify_step (h.e.d.inv.l.same hsl) env j _ (by rw [hg]; exact hc')).pstep.touched j
      refine ⟨_, x2, ?_⟩
      split
      · rw [World.mod_self]
      · rfl
    obtain ⟨v, p, e⟩ := key
    have gp := p.grow
    have hcap1 : ({ w.obj j with fd := true, pin := true, conn := .up, eof := false } : Obj).pend.length ≤ queueCap := hcap
    obtain ⟨d1, e1⟩ := gp.pend hcap1
    have e1 : v.pend = lastN queueCap ((w.obj j).pend ++ d1) := e1
    by_cases htel : (w.obj j).kind = .telnet
    · rw [if_pos htel] at e
      have g2 := Grow.write v telHello false
      obtain ⟨d2, e2⟩ := g2.pend (gp.cap hcap1)
      refine keep (d1 ++ d2) ?_ (Or.inl (by rw [htel]; rfl)) (fun _ _ => ?_)
      · rw [e, e2, e1, lastN_append_lastN, List.append_assoc]
      · rw [e]
        have ve : v.eof = false := by
          have := (p.console_eof hc').1
          rw [this]
        have vk : v.kind ≠ .client := by rw [gp.kind]; show (w.obj j).kind ≠ _; rw [htel]; simp
        have vf : v.fd = true := by rw [gp.fd]
        intro _ _
        left
        unfold Obj.write
        rw [if_neg (by decide), if_neg (by simp [ve]), if_neg (by simp)]
        simp [vf, vk]
    · rw [if_neg htel] at e
      refine keep d1 (by rw [e, e1]) (Or.inr (by rw [e, gp.fd])) ?_
      rintro (ho | ho | ho) _
      · exfalso
        cases hkk : (w.obj j).kind <;> rw [hkk] at ho hc' htel <;> simp [OKind.greets, OKind.isConsole] at ho hc' htel
      · exfalso
        have hpd : (w.obj j).conn = .pending := by simpa [ho] using hn
        exact htel (x0.pending hpd).1
      · exact absurd rfl ho
  | connPend j =>
    simp only [Step.target, Option.some.injEq] at ht; subst ht
    simp only [World.step, Option.some.injEq] at hs; subst hs
    by_cases hc : j ∈ w.live ∧ (w.obj j).kind = .telnet ∧ (w.obj j).fd = false
    · rw [if_pos hc] at *
      refine keep [] (by rw [World.mod_self, List.append_nil, lastN_self _ _ hcap]) (Or.inl (by rw [hc.2.1]; rfl)) (fun _ _ => ?_)
      rw [World.mod_self]; exact fun _ _ => Or.inl rfl
    · rw [if_neg hc] at *; exact mk' (.refl _)
  | connDown j =>
    simp only [Step.target, Option.some.injEq] at ht; subst ht
    simp only [World.step, Option.some.injEq] at hs; subst hs
    by_cases hc : (w.obj j).kind = .telnet ∧ (w.obj j).conn = .pending
    · rw [if_pos hc] at *
      refine keep [] (by rw [World.mod_self, List.append_nil, lastN_self _ _ hcap]) (Or.inl (by rw [hc.1]; rfl)) (fun _ _ => ?_)
      rw [World.mod_self]; intro hf; simp at hf
    · rw [if_neg hc] at *; exact mk' (.refl _)
  | connFail j =>
    simp only [Step.target, Option.some.injEq] at ht; subst ht
    simp only [World.step, Option.some.injEq] at hs; subst hs
    apply mk'
    split
    · rename_i hc
      exact ((notify_step h.e.d.inv.l env j (.connFailed j) (by rw [hc.2.1]; rfl)).pstep.touched j).grow
    · exact .refl _
  | resetTimeout j =>
    simp only [Step.target, Option.some.injEq] at ht; subst ht
    simp only [World.step, Option.some.injEq] at hs; subst hs
    apply mk'
    have m : Grow (w.obj j) ((w.mod j (fun o => { o with resetPid := none, resetTimer := false })).obj j) := by
      rw [World.mod_self]; exact .same rfl rfl rfl rfl rfl rfl
    split
    · split
      · exact m
      · split
        · exact m
        · exact m
    · exact .refl _
  | logOpen j ok =>
    simp only [Step.target, Option.some.injEq] at ht; subst ht
    simp only [World.step, Option.some.injEq] at hs; subst hs
    by_cases hc : (w.obj j).kind = .logfile
    case neg => rw [if_neg hc] at *; exact mk' (.refl _)
    rw [if_pos hc] at *
    have hgr : (w.obj j).kind.greets = true := by rw [hc]; rfl
    cases ok with
    | true =>
      have he : (w.mod j (fun o =>
        if true then
          { ({ o with fd := true, pout := false, eof := false } : Obj).write (env.txt (.logOpened j) w.tick) false with
            line := .init }
        else { o with fd := false, pin := false, pout := false })).obj j =
          { ({ w.obj j with fd := true, pout := false, eof := false } : Obj).write (env.txt (.logOpened j) w.tick) false with
            line := .init } := by rw [World.mod_self, if_pos rfl]
      obtain ⟨d, hd⟩ := (Grow.write ({ w.obj j with fd := true, pout := false, eof := false } : Obj) (env.txt (.logOpened j) w.tick) false).pend hcap
      refine keep d (by rw [he]; exact hd) (Or.inl hgr) (fun _ _ => ?_)
      rw [he]
      intro _ _
      left
      show (Obj.write _ _ _).pout = true
      unfold Obj.write
      rw [if_neg (htxt _), if_neg (by simp), if_neg (by simp)]
      simp [hc]
    | false =>
      refine keep [] (by rw [World.mod_self, if_neg (by simp), List.append_nil, lastN_self _ _ hcap]) (Or.inl hgr) (fun _ _ => ?_)
      rw [World.mod_self, if_neg (by simp)]; intro hf; simp at hf
  | logStamp j =>
    simp only [Step.target, Option.some.injEq] at ht; subst ht
    simp only [World.step, Option.some.injEq] at hs; subst hs
    apply mk'
    split
    · unfold World.note; rw [World.mod_self]; exact .write _ _ _
    · exact .refl _

theorem awake_reach {env : Env} (htxt : ∀ i k, env.txt (.logOpened i) k ≠ []) {w : World} (h : Reachable env w) :
    ∀ i ∈ w.live, (w.obj i).kind.greets = true → (w.obj i).awake := by
  obtain ⟨cfg, ss, hc, hr⟩ := h
  refine (world_run_inv (P := fun w => FInv w ∧ ∀ i ∈ w.live, (w.obj i).kind.greets = true → (w.obj i).awake) env
    (fun w s w' h hs => ⟨h.1.step s hs, fun i hi hg => ?_⟩) (fun w n h => ⟨h.1.tick n, h.2⟩) ss
    ⟨Reachable.finv (env := env) ⟨cfg, [], hc, rfl⟩, fun i _ _ => awake_nil ?_⟩ hr).2
  · obtain ⟨l1, l2, l3⟩ := step_live h.1.e.d s hs
    rcases l1 i hi with hl | ⟨k, q, rfl, hq, hn, rfl⟩
    · have f := flow_step h.1 s hs i (htxt i) hl hi
      rw [f.kind] at hg
      exact f.aw (Or.inl hg) (h.2 i hl hg)
    · have h0 := h.1.e.d.unwait (w.wait.eraseIdx k) (fun q hq => List.mem_of_mem_eraseIdx hq)
      have hok := h.1.e.d.wait q (List.mem_of_getElem? hq)
      refine (grant_own h0.inv env i q hn hok.2).grow.aw (awake_nil ?_)
      rw [newClient_obj, if_pos rfl]
  · rw [boot_obj]
    split
    · rfl
    · split
      · rfl
      · split <;> rfl

/-- Bytes leave as often as the other side accepts some. -/
theorem flow_run {env : Env} (htxt : ∀ i k, env.txt (.logOpened i) k ≠ []) (i : Nat) (ss : List Step) : ∀ {w w' : World}, FInv w →
    w.run env ss = some w' → i ∈ w.live → ss.all (noGrant i) = true → i ∈ w'.live → (w'.obj i).gen = (w.obj i).gen →
    ((w.obj i).kind.greets = true ∨ (w.obj i).fd = true) → (w.obj i).awake →
    (w'.obj i).awake ∧ ∃ d x, sentTo i w'.fx = sentTo i w.fx ++ x ∧ min (w.obj i).pend.length (acceptCount env i w ss) ≤ x.length ∧
      (keepsUp env w i ss = true → x ++ (w'.obj i).pend = (w.obj i).pend ++ d) := by
  induction ss with
  | nil =>
    intro w w' _ hr _ _ _ _ _ ha
    simp only [World.run, Option.some.injEq] at hr; subst hr
    exact ⟨ha, [], [], by simp, by simp [acceptCount], by simp⟩
  | cons s ss ih =>
    intro w w' h hr hl hng hl' hg hgr ha
    simp only [World.run, Option.bind_eq_some_iff] at hr
    obtain ⟨w1, h1, h2⟩ := hr
    simp only [List.all_cons, Bool.and_eq_true] at hng
    have h3 := (h.step s h1).tick (w1.tick + 1)
    have hl1 : i ∈ w1.live := by
      by_cases g : i ∈ w1.live
      · exact g
      · exact absurd hl' (run_gone (w := { w1 with tick := w1.tick + 1 }) i ss h3.e h2 hng.2 g)
    have m1 := step_mono h s h1 i
    have m2 : (w1.obj i).gen ≤ (w'.obj i).gen := run_mono (w := { w1 with tick := w1.tick + 1 }) i ss h3 h2
    have f := flow_step h s h1 i (htxt i) hl hl1
    have hg1 : (w1.obj i).gen = (w.obj i).gen := by omega
    obtain ⟨f1, d, x, f2, f3, f4⟩ := f.flow hg1
    obtain ⟨r1, d', y, r2, r3, r4⟩ := ih (w := { w1 with tick := w1.tick + 1 }) h3 h2 hl1 hng.2 hl' (by rw [hg]; exact hg1.symm) (f1 hgr)
      (f.aw (by rcases hgr with g | g
                · exact Or.inl g
                · exact Or.inr (Or.inl g)) ha)
    refine ⟨r1, d ++ d', x ++ y, by rw [r2]; dsimp only; rw [f2, List.append_assoc], ?_, ?_⟩
    · have hc : acceptCount env i w (s :: ss) = (if acceptsOf i s && (w.obj i).takesOutput then 1 else 0) +
          acceptCount env i { w1 with tick := w1.tick + 1 } ss := by rw [acceptCount, h1]
      rw [hc, List.length_append]
      have hlen : (w.obj i).pend.length ≤ x.length + (w1.obj i).pend.length := by
        have e := congrArg List.length f3
        have hcap := (h.e.d.inv.oi i).cap
        rw [List.length_append] at e
        have : (w.obj i).pend.length ≤ (lastN queueCap ((w.obj i).pend ++ d)).length := by
          unfold lastN; rw [List.length_drop, List.length_append]; omega
        omega
      have r3 : min (w1.obj i).pend.length (acceptCount env i { w1 with tick := w1.tick + 1 } ss) ≤ y.length := r3
      split
      · rename_i hacc
        rw [Bool.and_eq_true] at hacc
        by_cases hn : (w.obj i).pend = []
        · rw [hn]; simp
        · have ho : (w.obj i).pout = true := by
            have ht := hacc.2
            simp only [Obj.takesOutput, Bool.and_eq_true, Bool.not_eq_true', Bool.and_eq_false_iff, decide_eq_false_iff_not] at ht
            rcases ha ht.1.1 hn with g | g
            · exact g
            · rcases ht.1.2 with q | q
              · exact absurd g.1 q
              · rw [g.2] at q; simp at q
          have hx : 0 < x.length := List.length_pos_iff.2 (f4 hacc.1 hacc.2 ho hn)
          omega
      · omega
    · intro hk
      rw [keepsUp, h1, Bool.and_eq_true, decide_eq_true_eq] at hk
      have e1 : x ++ (w1.obj i).pend = (w.obj i).pend ++ d := by
        rw [f3]
        apply lastN_self
        have e := congrArg List.length f3
        have hk1 := hk.1
        rw [f2, List.length_append] at hk1
        rw [List.length_append] at e
        have : (lastN queueCap ((w.obj i).pend ++ d)).length < queueCap := by omega
        unfold lastN at this
        rw [List.length_drop] at this
        omega
      have e2 := r4 hk.2
      dsimp only at e2
      rw [List.append_assoc, e2, ← List.append_assoc, e1, List.append_assoc]

/-- A client that stays is not closed. -/
theorem client_gen_run {env : Env} (c : Nat) (ss : List Step) : ∀ {w w' : World}, FInv w → w.run env ss = some w' → c ∈ w.live →
    (w.obj c).kind = .client → ss.all (noGrant c) = true → c ∈ w'.live → (w'.obj c).gen = (w.obj c).gen := by
  induction ss with
  | nil => intro w w' _ hr _ _ _ _; simp only [World.run, Option.some.injEq] at hr; subst hr; rfl
  | cons s ss ih =>
    intro w w' h hr hl hk hng hl'
    simp only [World.run, Option.bind_eq_some_iff] at hr
    obtain ⟨w1, h1, h2⟩ := hr
    simp only [List.all_cons, Bool.and_eq_true] at hng
    have h3 := (h.step s h1).tick (w1.tick + 1)
    have hl1 : c ∈ w1.live := by
      by_cases g : c ∈ w1.live
      · exact g
      · exact absurd hl' (run_gone (w := { w1 with tick := w1.tick + 1 }) c ss h3.e h2 hng.2 g)
    have hkd : (w1.obj c).kind = .client := by rw [(step_live h.e.d s h1).2.2 c hl]; exact hk
    have hg := ih (w := { w1 with tick := w1.tick + 1 }) h3 h2 hl1 hkd hng.2 hl'
    rw [hg]
    show (w1.obj c).gen = _
    by_cases ht : s.target = some c
    case neg => exact (step_ext h.e.d env s h1 c ht).gen
    by_cases hp : ∃ up rd wr, s = .poll c up rd wr
    · obtain ⟨up, rd, wr, rfl⟩ := hp
      rcases poll_cown h.e.d env c up rd wr hk h1 with g | g
      · exact absurd hl1 g
      · exact g.gen
    · rcases step_client_target s h1 hl hk ht (by intro up rd wr e; exact hp ⟨up, rd, wr, e⟩) with g | g <;> rw [g]

/-- An object at its end with bytes waiting has bytes waiting as long as it is open. -/
theorem closing_run {env : Env} (i : Nat) (ss : List Step) : ∀ {w w' : World}, FInv w → i ∈ w.live → (w.obj i).eof = true →
    (w.obj i).pend ≠ [] → w.run env ss = some w' → (w'.obj i).gen = (w.obj i).gen → (w'.obj i).pend ≠ [] := by
  induction ss with
  | nil =>
    intro w w' _ _ _ hp hr _
    simp only [World.run, Option.some.injEq] at hr; subst hr; exact hp
  | cons s ss ih =>
    intro w w' h hl he hp hr hg
    simp only [World.run, Option.bind_eq_some_iff] at hr
    obtain ⟨w1, h1, h2⟩ := hr
    have h3 := (h.step s h1).tick (w1.tick + 1)
    have m2 : (w1.obj i).gen ≤ (w'.obj i).gen := run_mono (w := { w1 with tick := w1.tick + 1 }) i ss h3 h2
    rcases eof_step h s h1 i hl he with ⟨g1, g2, g3, n, -, -, -, g4⟩ | ⟨g1, -⟩
    · exact ih (w := { w1 with tick := w1.tick + 1 }) h3 g3 g2 (g4 hp) h2 (by rw [hg]; exact g1.symm)
    · omega

end Conman
