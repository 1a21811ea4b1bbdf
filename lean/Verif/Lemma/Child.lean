import Verif.Spec.Child

/-! Descriptors of the daemon and of its children. -/
namespace Conman
open Spec

structure ChildInv (t0 : FdTab) (up : List (Nat × Nat)) (t : FdTab) : Prop where
  std : ∀ n, n < 3 → ∃ f, t n = some f ∧ f.cx = false ∧ f.file.mine = false
  keep : ∀ n f, 3 ≤ n → t0 n = some f → t n = some f
  high : ∀ n f, 3 ≤ n → t n = some f → f.cx = true ∨ t0 n = some f ∨ ∃ c, f = ⟨.client c, false⟩ ∧ (c, n) ∈ up
  ups : ∀ c n, (c, n) ∈ up → t n = some ⟨.client c, false⟩

theorem alloc_some {t t' : FdTab} {n : Nat} {f : Fd} (h : t.alloc n f = some t') : t n = none ∧ t' = t.set n f := by
  unfold FdTab.alloc at h
  split at h
  · rename_i g; cases h; exact ⟨g, rfl⟩
  · cases h

theorem set_self (t : FdTab) (n : Nat) (f : Fd) : t.set n f n = some f := if_pos rfl
theorem set_other (t : FdTab) (n m : Nat) (f : Fd) (h : m ≠ n) : t.set n f m = t m := if_neg h
theorem clr_self (t : FdTab) (n : Nat) : t.clr n n = none := if_pos rfl
theorem clr_other (t : FdTab) (n m : Nat) (h : m ≠ n) : t.clr n m = t m := if_neg h

/-- A number that is free is above 2. -/
theorem ChildInv.free {t0 : FdTab} {up : List (Nat × Nat)} {t : FdTab} (I : ChildInv t0 up t) {n : Nat} (h : t n = none) : 3 ≤ n := by
  apply Decidable.by_contra
  intro g
  obtain ⟨f, hf, _⟩ := I.std n (by omega)
  rw [h] at hf; cases hf

/-- A descriptor with FD_CLOEXEC. -/
theorem ChildInv.add {t0 : FdTab} {up : List (Nat × Nat)} {t t' : FdTab} (I : ChildInv t0 up t) {n : Nat} {f : Fd} (h : t.alloc n f = some t') (hc : f.cx = true) : ChildInv t0 up t' := by
  obtain ⟨h1, rfl⟩ := alloc_some h
  have h3 := I.free h1
  refine ⟨fun m hm => ?_, fun m g hm hg => ?_, fun m g hm hg => ?_, fun c m hm => ?_⟩
  · rw [set_other _ _ _ _ (by omega)]; exact I.std m hm
  · have := I.keep m g hm hg
    rw [set_other _ _ _ _ (by rintro rfl; rw [h1] at this; cases this)]; exact this
  · by_cases e : m = n
    · subst e; rw [set_self] at hg; cases hg; exact .inl hc
    · rw [set_other _ _ _ _ e] at hg; exact I.high m g hm hg
  · have := I.ups c m hm
    rw [set_other _ _ _ _ (by rintro rfl; rw [h1] at this; cases this)]; exact this

/-- Closing a descriptor. -/
theorem ChildInv.del {t0 : FdTab} (G : Given t0) {up : List (Nat × Nat)} {t : FdTab} (I : ChildInv t0 up t) {n : Nat} (hn : ∀ f, t n = some f → f.file.mine = true) (h3 : 3 ≤ n) :
    ChildInv t0 (up.filter fun x => x.2 ≠ n) (t.clr n) := by
  refine ⟨fun m hm => ?_, fun m g hm hg => ?_, fun m g hm hg => ?_, fun c m hm => ?_⟩
  · rw [clr_other _ _ _ (by omega)]; exact I.std m hm
  · have := I.keep m g hm hg
    rw [clr_other _ _ _ (by
      rintro rfl
      have h := hn g this
      rw [G.all m g hg] at h; cases h)]
    exact this
  · by_cases e : m = n
    · subst e; rw [clr_self] at hg; cases hg
    · rw [clr_other _ _ _ e] at hg
      rcases I.high m g hm hg with h | h | ⟨c, h1, h2⟩
      · exact .inl h
      · exact .inr (.inl h)
      · exact .inr (.inr ⟨c, h1, by rw [List.mem_filter]; exact ⟨h2, by simpa using e⟩⟩)
  · rw [List.mem_filter] at hm
    rw [clr_other _ _ _ (by simpa using hm.2)]; exact I.ups c m hm.1

theorem dupStd_low (t : FdTab) (b : Nat) (f : Fd) (hb : 3 ≤ b) (h : t b = some f) (n : Nat) : t.dupStd b n = if n < 3 then some ⟨f.file, false⟩ else t n := by
  have d : ∀ (t : FdTab) (k : Nat), k < 3 → t b = some f → t.dup2 b k = t.set k ⟨f.file, false⟩ := by
    intro t k hk ht
    unfold FdTab.dup2
    rw [ht]
    dsimp only
    rw [if_neg (by omega)]
  unfold FdTab.dupStd
  rw [d t 0 (by omega) h, d _ 1 (by omega) (by rw [set_other _ _ _ _ (by omega)]; exact h),
    d _ 2 (by omega) (by rw [set_other _ _ _ _ (by omega), set_other _ _ _ _ (by omega)]; exact h)]
  by_cases e2 : n = 2
  · subst e2; rw [set_self, if_pos (by omega)]
  · rw [set_other _ _ _ _ e2]
    by_cases e1 : n = 1
    · subst e1; rw [set_self, if_pos (by omega)]
    · rw [set_other _ _ _ _ e1]
      by_cases e0 : n = 0
      · subst e0; rw [set_self, if_pos (by omega)]
      · rw [set_other _ _ _ _ e0, if_neg (by omega)]

/-- What survives `execv` above stderr. -/
theorem ChildInv.exec {t0 : FdTab} (G : Given t0) {up : List (Nat × Nat)} {t : FdTab} (I : ChildInv t0 up t) {n : Nat} (hn : 3 ≤ n) (f : Fd) :
    t.exec n = some f ↔ t0 n = some f ∨ ∃ c, (c, n) ∈ up ∧ f = ⟨.client c, false⟩ := by
  unfold FdTab.exec
  rw [Option.filter_eq_some_iff]
  constructor
  · rintro ⟨h1, h2⟩
    rcases I.high n f hn h1 with h | h | ⟨c, h, h'⟩
    · rw [h] at h2; cases h2
    · exact .inl h
    · exact .inr ⟨c, h', h⟩
  · rintro (h | ⟨c, h, rfl⟩)
    · exact ⟨I.keep n f hn h, by rw [G.all n f h]; rfl⟩
    · exact ⟨I.ups c n h, rfl⟩

/-- The descriptors of a program. -/
theorem prog_tab {t0 : FdTab} (G : Given t0) {up : List (Nat × Nat)} {t ta tb : FdTab} (I : ChildInv t0 up t) {i a b : Nat} (ha : t.alloc a ⟨.pair i true, true⟩ = some ta)
    (hb : ta.alloc b ⟨.pair i false, true⟩ = some tb) (n : Nat) (f : Fd) :
    progTab tb a b n = some f ↔ (n < 3 ∧ f = ⟨.pair i false, false⟩) ∨ (3 ≤ n ∧ (t0 n = some f ∨ ∃ c, (c, n) ∈ up ∧ f = ⟨.client c, false⟩)) := by
  have Ia := I.add ha rfl
  have Ib := Ia.add hb rfl
  obtain ⟨a1, rfl⟩ := alloc_some ha
  obtain ⟨b1, rfl⟩ := alloc_some hb
  have a3 := I.free a1
  have b3 := Ia.free b1
  have hab : b ≠ a := by rintro rfl; rw [set_self] at b1; cases b1
  have hd := dupStd_low (((t.set a ⟨.pair i true, true⟩).set b ⟨.pair i false, true⟩).clr a) b ⟨.pair i false, true⟩ b3 (by rw [clr_other _ _ _ hab, set_self]) n
  by_cases hn : n < 3
  · have : progTab ((t.set a ⟨.pair i true, true⟩).set b ⟨.pair i false, true⟩) a b n = some ⟨.pair i false, false⟩ := by
      unfold progTab FdTab.exec
      rw [hd, if_pos hn]; rfl
    rw [this]
    constructor
    · intro h; cases h; exact .inl ⟨hn, rfl⟩
    · rintro (⟨_, rfl⟩ | ⟨h, _⟩)
      · rfl
      · omega
  · have hn : 3 ≤ n := by omega
    have : progTab ((t.set a ⟨.pair i true, true⟩).set b ⟨.pair i false, true⟩) a b n = t.exec n := by
      unfold progTab FdTab.exec
      rw [hd, if_neg (by omega)]
      by_cases e : n = a
      · subst e; rw [clr_self, a1]
      · rw [clr_other _ _ _ e]
        by_cases e2 : n = b
        · subst e2
          rw [set_self]
          rw [set_other _ _ _ _ e] at b1
          rw [b1]; rfl
        · rw [set_other _ _ _ _ e2, set_other _ _ _ _ e]
    rw [this, I.exec G hn]
    constructor
    · intro h; exact .inr ⟨hn, h⟩
    · rintro (⟨h, _⟩ | ⟨_, h⟩)
      · omega
      · exact h

/-- The descriptors of a reset command. -/
theorem reset_tab {t0 : FdTab} (G : Given t0) {up : List (Nat × Nat)} {t t' : FdTab} (I : ChildInv t0 up t) {k : Nat} (h : t.alloc k ⟨.null, false⟩ = some t') (n : Nat) (f : Fd) :
    resetTab t' (some k) n = some f ↔ (n < 3 ∧ f = ⟨.null, false⟩) ∨ (3 ≤ n ∧ (t0 n = some f ∨ ∃ c, (c, n) ∈ up ∧ f = ⟨.client c, false⟩)) := by
  obtain ⟨k1, rfl⟩ := alloc_some h
  have k3 := I.free k1
  have hd := dupStd_low (t.set k ⟨.null, false⟩) k ⟨.null, false⟩ k3 (set_self ..) n
  unfold resetTab
  dsimp only
  rw [if_pos (by omega)]
  by_cases hn : n < 3
  · have : (((t.set k ⟨.null, false⟩).dupStd k).clr k).exec n = some ⟨.null, false⟩ := by
      unfold FdTab.exec
      rw [clr_other _ _ _ (by omega), hd, if_pos hn]; rfl
    rw [this]
    constructor
    · intro h; cases h; exact .inl ⟨hn, rfl⟩
    · rintro (⟨_, rfl⟩ | ⟨h, _⟩)
      · rfl
      · omega
  · have hn : 3 ≤ n := by omega
    have : (((t.set k ⟨.null, false⟩).dupStd k).clr k).exec n = t.exec n := by
      unfold FdTab.exec
      by_cases e : n = k
      · subst e; rw [clr_self, k1]
      · rw [clr_other _ _ _ e, hd, if_neg (by omega), set_other _ _ _ _ e]
    rw [this, I.exec G hn]
    constructor
    · intro h; exact .inr ⟨hn, h⟩
    · rintro (⟨h, _⟩ | ⟨_, h⟩)
      · omega
      · exact h

theorem reset_tab_none {t0 : FdTab} (G : Given t0) {up : List (Nat × Nat)} {t : FdTab} (I : ChildInv t0 up t) (n : Nat) (f : Fd) :
    resetTab t none n = some f ↔ 3 ≤ n ∧ (t0 n = some f ∨ ∃ c, (c, n) ∈ up ∧ f = ⟨.client c, false⟩) := by
  unfold resetTab
  dsimp only
  by_cases hn : n < 3
  · have : (((t.clr 0).clr 1).clr 2).exec n = none := by
      have : (((t.clr 0).clr 1).clr 2) n = none := by
        by_cases e2 : n = 2
        · subst e2; exact clr_self ..
        · rw [clr_other _ _ _ e2]
          by_cases e1 : n = 1
          · subst e1; exact clr_self ..
          · rw [clr_other _ _ _ e1]
            have : n = 0 := by omega
            subst this; exact clr_self ..
      unfold FdTab.exec
      rw [this]; rfl
    rw [this]
    constructor
    · intro h; cases h
    · rintro ⟨h, _⟩; omega
  · have hn : 3 ≤ n := by omega
    have : (((t.clr 0).clr 1).clr 2).exec n = t.exec n := by
      unfold FdTab.exec
      rw [clr_other _ _ _ (by omega), clr_other _ _ _ (by omega), clr_other _ _ _ (by omega)]
    rw [this, I.exec G hn]
    exact ⟨fun h => ⟨hn, h⟩, fun h => h.2⟩

theorem settingUp_snoc (es : List FdEv) (e : FdEv) : settingUp (es ++ [e]) = match e with
    | .accept c n => settingUp es ++ [(c, n)]
    | .admit n => (settingUp es).filter fun x => x.2 ≠ n
    | .close n => (settingUp es).filter fun x => x.2 ≠ n
    | _ => settingUp es := by
  unfold settingUp
  rw [List.foldl_append]
  cases e <;> rfl

/-- One event. -/
theorem ChildInv.step {t0 : FdTab} (G : Given t0) {es : List FdEv} {s s' : FdSys} (I : ChildInv t0 (settingUp es) s.tab) (e : FdEv) (h : s.step e = some s') :
    ChildInv t0 (settingUp (es ++ [e])) s'.tab := by
  rw [settingUp_snoc]
  cases e with
  | «open» site k n =>
    simp only [FdSys.step, Option.map_eq_some_iff] at h
    obtain ⟨t, h, rfl⟩ := h
    exact I.add h (by cases site <;> rfl)
  | accept c n =>
    simp only [FdSys.step, Option.map_eq_some_iff] at h
    obtain ⟨t, h, rfl⟩ := h
    obtain ⟨h1, rfl⟩ := alloc_some h
    have h3 := I.free h1
    refine ⟨fun m hm => ?_, fun m g hm hg => ?_, fun m g hm hg => ?_, fun c' m hm => ?_⟩
    · dsimp only; rw [set_other _ _ _ _ (by omega)]; exact I.std m hm
    · have := I.keep m g hm hg
      dsimp only
      rw [set_other _ _ _ _ (by rintro rfl; rw [h1] at this; cases this)]; exact this
    · dsimp only at hg ⊢
      by_cases e : m = n
      · subst e; rw [set_self] at hg; cases hg; exact .inr (.inr ⟨c, rfl, by simp⟩)
      · rw [set_other _ _ _ _ e] at hg
        rcases I.high m g hm hg with h | h | ⟨c, h1, h2⟩
        · exact .inl h
        · exact .inr (.inl h)
        · exact .inr (.inr ⟨c, h1, List.mem_append_left _ h2⟩)
    · dsimp only at hm ⊢
      rw [List.mem_append, List.mem_singleton] at hm
      rcases hm with hm | hm
      · have := I.ups c' m hm
        rw [set_other _ _ _ _ (by rintro rfl; rw [h1] at this; cases this)]; exact this
      · cases hm; exact set_self ..
  | admit n =>
    simp only [FdSys.step] at h
    split at h
    · rename_i c x hc
      cases h
      have h3 : 3 ≤ n := by
        apply Decidable.by_contra
        intro g
        obtain ⟨f, hf, _, hm⟩ := I.std n (by omega)
        rw [hc] at hf; cases hf; cases hm
      refine ⟨fun m hm => ?_, fun m g hm hg => ?_, fun m g hm hg => ?_, fun c' m hm => ?_⟩
      · dsimp only; rw [set_other _ _ _ _ (by omega)]; exact I.std m hm
      · have := I.keep m g hm hg
        dsimp only
        rw [set_other _ _ _ _ (by
          rintro rfl
          rw [hc, G.all m g hg] at this
          cases this)]
        exact this
      · dsimp only at hg ⊢
        by_cases e : m = n
        · subst e; rw [set_self] at hg; cases hg; exact .inl rfl
        · rw [set_other _ _ _ _ e] at hg
          rcases I.high m g hm hg with h | h | ⟨c, h1, h2⟩
          · exact .inl h
          · exact .inr (.inl h)
          · exact .inr (.inr ⟨c, h1, by rw [List.mem_filter]; exact ⟨h2, by simpa using e⟩⟩)
      · dsimp only at hm ⊢
        rw [List.mem_filter] at hm
        rw [set_other _ _ _ _ (by simpa using hm.2)]; exact I.ups c' m hm.1
    · cases h
  | close n =>
    simp only [FdSys.step] at h
    split at h
    · rename_i f hf
      split at h
      · rename_i hm
        cases h
        have h3 : 3 ≤ n := by
          apply Decidable.by_contra
          intro g
          obtain ⟨f', hf', _, hm'⟩ := I.std n (by omega)
          rw [hf] at hf'; cases hf'; rw [hm] at hm'; cases hm'
        exact I.del G (fun f' hf' => by rw [hf] at hf'; cases hf'; exact hm) h3
      · cases h
    · cases h
  | prog i a b =>
    simp only [FdSys.step, Option.bind_eq_some_iff, Option.map_eq_some_iff] at h
    obtain ⟨ta, ha, tb, hb, rfl⟩ := h
    have Ia := I.add ha rfl
    have b3 := Ia.free (alloc_some hb).1
    have Ib := (Ia.add hb rfl)
    have hbs := (alloc_some hb).2
    have D := Ib.del G (n := b) (fun f hf => by rw [hbs, set_self] at hf; cases hf; rfl) b3
    have hfil : (settingUp es).filter (fun x => x.2 ≠ b) = settingUp es := by
      rw [List.filter_eq_self]
      rintro ⟨c, m⟩ hm
      have := Ib.ups c m hm
      rw [hbs] at this
      by_cases e : m = b
      · subst e; rw [set_self] at this; cases this
      · simpa using e
    rw [hfil] at D
    exact D
  | reset i n =>
    cases n with
    | none =>
      simp only [FdSys.step, Option.some.injEq] at h
      subst h; exact I
    | some n =>
      simp only [FdSys.step, Option.map_eq_some_iff] at h
      obtain ⟨t, _, rfl⟩ := h
      exact I

theorem fdRun_append (es es' : List FdEv) : ∀ s : FdSys, s.run (es ++ es') = (s.run es).bind fun s => s.run es' := by
  induction es with
  | nil => intro s; rfl
  | cons e es ih =>
    intro s
    simp only [List.cons_append, FdSys.run]
    cases s.step e with
    | none => rfl
    | some s => exact ih s

theorem ChildInv.run {t0 : FdTab} (G : Given t0) (es : List FdEv) : ∀ {pre : List FdEv} {s s' : FdSys}, ChildInv t0 (settingUp pre) s.tab → s.run es = some s' →
    ChildInv t0 (settingUp (pre ++ es)) s'.tab := by
  induction es with
  | nil => intro pre s s' I h; simp only [FdSys.run, Option.some.injEq] at h; subst h; rw [List.append_nil]; exact I
  | cons e es ih =>
    intro pre s s' I h
    simp only [FdSys.run, Option.bind_eq_some_iff] at h
    obtain ⟨s1, h1, h2⟩ := h
    have := ih (I.step G e h1) h2
    rw [List.append_assoc] at this
    exact this

/-- After the start. -/
theorem start_inv {t0 t : FdTab} (G : Given t0) {fg : Bool} {k : StartFds} (h : startFds t0 fg k = some t) :
    ChildInv t0 [] t ∧ ∀ n, n < 3 → t n = some ⟨if fg then .given n else .null, false⟩ := by
  have I0 : ChildInv t0 [] t0 := ⟨fun n hn => ⟨_, G.std n hn, rfl, rfl⟩, fun n f _ h => h, fun n f _ h => .inr (.inl h), fun c n h => (nomatch h)⟩
  have low : ∀ {t t' : FdTab} {n : Nat} {f : Fd}, ChildInv t0 [] t → (∀ m, m < 3 → t m = some ⟨.given m, false⟩) → t.alloc n f = some t' → ∀ m, m < 3 → t' m = some ⟨.given m, false⟩ := by
    intro t t' n f I hl h m hm
    obtain ⟨h1, rfl⟩ := alloc_some h
    have := I.free h1
    rw [set_other _ _ _ _ (by omega)]; exact hl m hm
  unfold startFds at h
  simp only [Option.bind_eq_some_iff] at h
  obtain ⟨t1, h1, t2, h2, t3, h3, t4, h4, t5, h5, h6⟩ := h
  have I1 := I0.add h1 rfl
  have L1 := low I0 G.std h1
  have I2 := I1.add h2 rfl
  have L2 := low I1 L1 h2
  cases fg with
  | true =>
    cases h3
    have I4 := I2.add h4 rfl
    have L4 := low I2 L2 h4
    cases h6
    exact ⟨I4.add h5 rfl, low I4 L4 h5⟩
  | false =>
    -- the pipe of `begin_daemonize`: one end is closed, the other one until the end
    simp only [Bool.false_eq_true, if_false, Option.bind_eq_some_iff, Option.map_eq_some_iff] at h3 h6 ⊢
    obtain ⟨ta, ha, tb, hb, rfl⟩ := h3
    obtain ⟨a1, rfl⟩ := alloc_some ha
    obtain ⟨b1, rfl⟩ := alloc_some hb
    have a3 := I2.free a1
    have hba : k.start1 ≠ k.start0 := by intro e; rw [e, set_self] at b1; cases b1
    rw [set_other _ _ _ _ hba] at b1
    have b3 := I2.free b1
    have e3 : ((t2.set k.start0 ⟨.startPipe, false⟩).set k.start1 ⟨.startPipe, false⟩).clr k.start0 = t2.set k.start1 ⟨.startPipe, false⟩ := by
      funext m
      by_cases e : m = k.start0
      · subst e; rw [clr_self, set_other _ _ _ _ (fun e => hba e.symm), a1]
      · rw [clr_other _ _ _ e]
        by_cases e2 : m = k.start1
        · subst e2; rw [set_self, set_self]
        · rw [set_other _ _ _ _ e2, set_other _ _ _ _ e, set_other _ _ _ _ e2]
    rw [e3] at h4
    -- moving the pipe out of the way
    have swap : ∀ {t t' : FdTab} {n : Nat} {f : Fd}, t k.start1 = none → (t.set k.start1 ⟨.startPipe, false⟩).alloc n f = some t' →
        ∃ u, t.alloc n f = some u ∧ t' = u.set k.start1 ⟨.startPipe, false⟩ ∧ u k.start1 = none := by
      intro t t' n f hn h
      obtain ⟨g1, rfl⟩ := alloc_some h
      have hne : n ≠ k.start1 := by intro e; rw [e, set_self] at g1; cases g1
      rw [set_other _ _ _ _ hne] at g1
      refine ⟨t.set n f, by unfold FdTab.alloc; rw [if_pos g1], ?_, by rw [set_other _ _ _ _ (fun e => hne e.symm)]; exact hn⟩
      funext m
      by_cases e : m = k.start1
      · subst e; rw [set_self, set_other _ _ _ _ (fun e => hne e.symm), set_self]
      · rw [set_other _ _ _ _ e]
        by_cases e2 : m = n
        · subst e2; rw [set_self, set_self]
        · rw [set_other _ _ _ _ e2, set_other _ _ _ _ e2, set_other _ _ _ _ e]
    obtain ⟨u4, g4, rfl, n4⟩ := swap b1 h4
    have I4 := I2.add g4 rfl
    have L4 := low I2 L2 g4
    obtain ⟨u5, g5, rfl, n5⟩ := swap n4 h5
    have I5 := I4.add g5 rfl
    have L5 := low I4 L4 g5
    obtain ⟨u6, I6, L6, n6, h7⟩ : ∃ u6, ChildInv t0 [] u6 ∧ (∀ m, m < 3 → u6 m = some ⟨.given m, false⟩) ∧ u6 k.start1 = none ∧
        endDaemonize (u6.set k.start1 ⟨.startPipe, false⟩) k.start1 k.null = some t := by
      obtain ⟨t6, g6, g7⟩ := h6
      cases hd : k.dlog with
      | none => rw [hd] at g6; cases g6; exact ⟨u5, I5, L5, n5, g7⟩
      | some n =>
        rw [hd] at g6
        obtain ⟨u6, k1, rfl, k2⟩ := swap n5 g6
        exact ⟨u6, I5.add k1 rfl, low I5 L5 k1, k2, g7⟩
    unfold endDaemonize at h7
    rw [Option.map_eq_some_iff] at h7
    obtain ⟨t8, h8, rfl⟩ := h7
    obtain ⟨u7, k1, rfl, k2⟩ := swap n6 h8
    obtain ⟨d1, rfl⟩ := alloc_some k1
    have d3 := I6.free d1
    have hne : k.start1 ≠ k.null := by intro e; rw [e, set_self] at k2; cases k2
    have hd := fun n => dupStd_low ((u6.set k.null ⟨.null, false⟩).set k.start1 ⟨.startPipe, false⟩) k.null ⟨.null, false⟩ d3
      (by rw [set_other _ _ _ _ (fun e => hne e.symm), set_self]) n
    have fin : ∀ n, ((((u6.set k.null ⟨.null, false⟩).set k.start1 ⟨.startPipe, false⟩).dupStd k.null).clr k.null).clr k.start1 n = if n < 3 then some ⟨.null, false⟩ else u6 n := by
      intro n
      by_cases hn : n < 3
      · rw [clr_other _ _ _ (by omega), clr_other _ _ _ (by omega), hd, if_pos hn, if_pos hn]
      · by_cases e : n = k.start1
        · subst e; rw [clr_self, if_neg hn, n6]
        · rw [clr_other _ _ _ e]
          by_cases e2 : n = k.null
          · subst e2; rw [clr_self, if_neg hn, d1]
          · rw [clr_other _ _ _ e2, hd, if_neg hn, set_other _ _ _ _ e, set_other _ _ _ _ e2, if_neg hn]
    refine ⟨⟨fun n hn => ⟨_, by rw [fin, if_pos hn], rfl, rfl⟩, fun n f hn h => ?_, fun n f hn h => ?_, fun c n h => (nomatch h)⟩, fun n hn => by rw [fin, if_pos hn]⟩
    · rw [fin, if_neg (by omega)]; exact I6.keep n f hn h
    · rw [fin, if_neg (by omega)] at h; exact I6.high n f hn h

theorem holds_snoc (c : Nat) (kids : List (Job × FdTab)) (x : Job × FdTab) : Holds c (kids ++ [x]) ↔ Holds c kids ∨ ∃ n f, x.2 n = some f ∧ f.file = .client c := by
  unfold Holds
  constructor
  · rintro ⟨y, hy, h⟩
    rw [List.mem_append, List.mem_singleton] at hy
    rcases hy with hy | rfl
    · exact .inl ⟨y, hy, h⟩
    · exact .inr h
  · rintro (⟨y, hy, h⟩ | h)
    · exact ⟨y, List.mem_append_left _ hy, h⟩
    · exact ⟨x, by simp, h⟩

theorem ChildInv.up3 {t0 : FdTab} {up : List (Nat × Nat)} {t : FdTab} (I : ChildInv t0 up t) {c n : Nat} (h : (c, n) ∈ up) : 3 ≤ n := by
  apply Decidable.by_contra
  intro g
  obtain ⟨f, hf, _, hm⟩ := I.std n (by omega)
  rw [I.ups c n h] at hf; cases hf; cases hm

theorem holds_step {t0 : FdTab} (G : Given t0) {es : List FdEv} {s s' : FdSys} (I : ChildInv t0 (settingUp es) s.tab) (e : FdEv) (h : s.step e = some s') (c : Nat) :
    Holds c s'.kids ↔ Holds c s.kids ∨ (startsProg e = true ∧ ∃ n, (c, n) ∈ settingUp es) := by
  have no : ∀ {e : FdEv}, startsProg e = false → s'.kids = s.kids → (Holds c s'.kids ↔ Holds c s.kids ∨ (startsProg e = true ∧ ∃ n, (c, n) ∈ settingUp es)) := by
    intro e h1 h2
    rw [h2, h1]
    exact ⟨.inl, fun h => h.elim id fun h => (nomatch h.1)⟩
  have key : ∀ (T : FdTab), (∀ n f, T n = some f → f.file = .client c → 3 ≤ n ∧ (t0 n = some f ∨ ∃ c, (c, n) ∈ settingUp es ∧ f = ⟨.client c, false⟩)) →
      (∀ n, 3 ≤ n → (c, n) ∈ settingUp es → T n = some ⟨.client c, false⟩) → ((∃ n f, T n = some f ∧ f.file = .client c) ↔ ∃ n, (c, n) ∈ settingUp es) := by
    intro T h1 h2
    constructor
    · rintro ⟨n, f, hf, hc⟩
      rcases (h1 n f hf hc).2 with h | ⟨c', h, rfl⟩
      · rw [G.all n f h] at hc; cases hc
      · cases hc; exact ⟨n, h⟩
    · rintro ⟨n, hn⟩
      exact ⟨n, _, h2 n (I.up3 hn) hn, rfl⟩
  cases e with
  | «open» site k n =>
    simp only [FdSys.step, Option.map_eq_some_iff] at h
    obtain ⟨t, _, rfl⟩ := h
    exact no rfl rfl
  | accept c n =>
    simp only [FdSys.step, Option.map_eq_some_iff] at h
    obtain ⟨t, _, rfl⟩ := h
    exact no rfl rfl
  | admit n =>
    simp only [FdSys.step] at h
    split at h
    · cases h; exact no rfl rfl
    · cases h
  | close n =>
    simp only [FdSys.step] at h
    split at h
    · split at h
      · cases h; exact no rfl rfl
      · cases h
    · cases h
  | prog i a b =>
    simp only [FdSys.step, Option.bind_eq_some_iff, Option.map_eq_some_iff] at h
    obtain ⟨ta, ha, tb, hb, rfl⟩ := h
    dsimp only
    rw [holds_snoc, key _ ?_ ?_]
    · simp [startsProg]
    · intro n f hf hc
      rcases (prog_tab G I ha hb n f).1 hf with ⟨_, rfl⟩ | h
      · cases hc
      · exact h
    · intro n h3 hn
      exact (prog_tab G I ha hb n _).2 (.inr ⟨h3, .inr ⟨c, hn, rfl⟩⟩)
  | reset i n =>
    cases n with
    | none =>
      simp only [FdSys.step, Option.some.injEq] at h
      subst h
      dsimp only
      rw [holds_snoc, key _ ?_ ?_]
      · simp [startsProg]
      · intro n f hf hc
        exact (reset_tab_none G I n f).1 hf
      · intro n h3 hn
        exact (reset_tab_none G I n _).2 ⟨h3, .inr ⟨c, hn, rfl⟩⟩
    | some k =>
      simp only [FdSys.step, Option.map_eq_some_iff] at h
      obtain ⟨t, hk, rfl⟩ := h
      dsimp only
      rw [holds_snoc, key _ ?_ ?_]
      · simp [startsProg]
      · intro n f hf hc
        rcases (reset_tab G I hk n f).1 hf with ⟨_, rfl⟩ | h
        · cases hc
        · exact h
      · intro n h3 hn
        exact (reset_tab G I hk n _).2 (.inr ⟨h3, .inr ⟨c, hn, rfl⟩⟩)

theorem holds_run {t0 : FdTab} (G : Given t0) (c : Nat) (es : List FdEv) : ∀ {pre : List FdEv} {s s' : FdSys}, ChildInv t0 (settingUp pre) s.tab → s.run es = some s' →
    (Holds c s'.kids ↔ Holds c s.kids ∨ ∃ p e q, es = p ++ e :: q ∧ startsProg e = true ∧ ∃ n, (c, n) ∈ settingUp (pre ++ p)) := by
  induction es with
  | nil =>
    intro pre s s' I h
    simp only [FdSys.run, Option.some.injEq] at h
    subst h
    exact ⟨.inl, fun h => h.elim id fun ⟨p, e, q, h, _⟩ => by cases p <;> cases h⟩
  | cons e es ih =>
    intro pre s s' I h
    simp only [FdSys.run, Option.bind_eq_some_iff] at h
    obtain ⟨s1, h1, h2⟩ := h
    rw [ih (I.step G e h1) h2, holds_step G I e h1 c]
    constructor
    · rintro ((h | ⟨h, n, hn⟩) | ⟨p, e', q, rfl, he, hn⟩)
      · exact .inl h
      · exact .inr ⟨[], e, es, rfl, h, n, by rw [List.append_nil]; exact hn⟩
      · exact .inr ⟨e :: p, e', q, rfl, he, by rw [List.append_assoc] at hn; exact hn⟩
    · rintro (h | ⟨p, e', q, hp, he, n, hn⟩)
      · exact .inl (.inl h)
      · cases p with
        | nil => cases hp; rw [List.append_nil] at hn; exact .inl (.inr ⟨he, n, hn⟩)
        | cons x p =>
          cases hp
          exact .inr ⟨p, e', q, rfl, he, n, by rw [List.append_assoc]; exact hn⟩

theorem alloc_keep {t t' : FdTab} {n m : Nat} {f g : Fd} (h : t.alloc n f = some t') (hm : t m = some g) : t' m = some g := by
  obtain ⟨h1, rfl⟩ := alloc_some h
  rw [set_other _ _ _ _ (by rintro rfl; rw [h1] at hm; cases hm)]; exact hm

theorem poll_pipe {t0 t : FdTab} (G : Given t0) {fg : Bool} {k : StartFds} (h : startFds t0 fg k = some t) :
    t k.poll0 = some ⟨.own .pollPipe 0, true⟩ ∧ t k.poll1 = some ⟨.own .pollPipe 1, true⟩ := by
  unfold startFds at h
  simp only [Option.bind_eq_some_iff] at h
  obtain ⟨t1, h1, t2, h2, t3, h3, t4, h4, t5, h5, h6⟩ := h
  have std : ∀ m, m < 3 → t2 m = some ⟨.given m, false⟩ := fun m hm => alloc_keep h2 (alloc_keep h1 (G.std m hm))
  have free : ∀ {m : Nat}, t2 m = none → 3 ≤ m := by
    intro m hm
    apply Decidable.by_contra
    intro g
    rw [std m (by omega)] at hm; cases hm
  have p0 : t2 k.poll0 = some ⟨.own .pollPipe 0, true⟩ := alloc_keep h2 (by rw [(alloc_some h1).2]; exact set_self ..)
  have p1 : t2 k.poll1 = some ⟨.own .pollPipe 1, true⟩ := by rw [(alloc_some h2).2]; exact set_self ..
  have lt : ∀ {n : Nat} {f : Fd} {t t' : FdTab}, (∀ m, m < 3 → t m = some ⟨.given m, false⟩) → t.alloc n f = some t' → 3 ≤ n := by
    intro n f t t' ht h
    apply Decidable.by_contra
    intro g
    have := (alloc_some h).1
    rw [ht n (by omega)] at this; cases this
  have q0 : 3 ≤ k.poll0 := lt G.std h1
  have q1 : 3 ≤ k.poll1 := lt (fun m hm => alloc_keep h1 (G.std m hm)) h2
  have go : ∀ m g, t2 m = some g → (3 ≤ m ∨ m < 3 ∧ fg = true) → t m = some g := by
    intro m g hm h3m
    have k3 : ∀ m g, t2 m = some g → t3 m = some g := by
      intro m g hm
      cases fg with
      | true => cases h3; exact hm
      | false =>
        simp only [Bool.false_eq_true, if_false, Option.bind_eq_some_iff, Option.map_eq_some_iff] at h3
        obtain ⟨ta, ha, tb, hb, rfl⟩ := h3
        rw [clr_other _ _ _ (by rintro rfl; rw [(alloc_some ha).1] at hm; cases hm)]
        exact alloc_keep hb (alloc_keep ha hm)
    have k5 : ∀ m g, t2 m = some g → t5 m = some g := fun m g hm => alloc_keep h5 (alloc_keep h4 (k3 m g hm))
    cases fg with
    | true => cases h6; exact k5 m g hm
    | false =>
      have h3m : 3 ≤ m := h3m.elim id fun h => (nomatch h.2)
      simp only [Bool.false_eq_true, if_false, Option.bind_eq_some_iff, Option.map_eq_some_iff] at h3 h6
      obtain ⟨ta, ha, tb, hb, rfl⟩ := h3
      obtain ⟨t6, g6, g7⟩ := h6
      have k6 : ∀ m g, t2 m = some g → t6 m = some g := by
        intro m g hm
        cases hd : k.dlog with
        | none => rw [hd] at g6; cases g6; exact k5 m g hm
        | some n => rw [hd] at g6; exact alloc_keep g6 (k5 m g hm)
      unfold endDaemonize at g7
      rw [Option.map_eq_some_iff] at g7
      obtain ⟨t8, h8, rfl⟩ := g7
      have n3 := lt (fun m hm => k6 m _ (std m hm)) h8
      have hs : k.start1 ≠ m := by
        rintro rfl
        have := (alloc_some hb).1
        rw [alloc_keep ha hm] at this; cases this
      rw [clr_other _ _ _ (fun e => hs e.symm), clr_other _ _ _ (by
        rintro rfl
        have := (alloc_some h8).1
        rw [k6 _ g hm] at this; cases this), dupStd_low _ _ ⟨.null, false⟩ n3 (by rw [(alloc_some h8).2]; exact set_self ..), if_neg (by omega)]
      exact alloc_keep h8 (k6 m g hm)
  exact ⟨go _ _ p0 (.inl q0), go _ _ p1 (.inl q1)⟩

end Conman
