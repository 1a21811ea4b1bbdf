import Verif.Lemma.Env

/-
Property C47 (environment).
-/
namespace Conman
open Spec (valueIn fixedVars keptVars)

/-- **C47.** The daemon's environment is made up of the fixed variables and of those variables to be kept that the caller's environment has, with the values
they have there.  The block is filled to the last byte and pointer, and nothing is stored outside. -/
theorem C47_strings (stdpath : List UInt8) (env : List (List UInt8)) (fill : UInt8) (hp : (0 : UInt8) ∉ stdpath) (he : ∀ s ∈ env, (0 : UInt8) ∉ s) :
    ∃ b, getSaneEnv stdpath env fill = some b ∧ b.num = b.ptrs.length ∧ b.ptr = b.mem.length ∧
      EnvBlock.strings b.mem b.ptrs = some ((fixedVars stdpath).map (fun kv => kv.1 ++ 0x3D :: kv.2) ++
        keptVars.filterMap (fun k => (valueIn env k).map fun v => k ++ 0x3D :: v)) := by
  have hfix : (fixedVars stdpath).map (fun kv => kv.1 ++ 0x3D :: kv.2) = envRestrict stdpath := by
    simp only [fixedVars, envRestrict, List.map_cons, List.map_nil]; rfl
  have hkept : keptVars.filterMap (fun k => (valueIn env k).map fun v => k ++ 0x3D :: v) = kept env envPreserve := by
    unfold kept; simp only [getenv_eq]; rfl
  rw [hfix, hkept]
  generalize hss : envRestrict stdpath ++ kept env envPreserve = ss
  have hsz : envSize env (envRestrict stdpath) envPreserve = (ss.length + 1, (joined ss).length) := by rw [envSize_eq, hss]
  have hz : ∀ s ∈ ss, (0 : UInt8) ∉ s := by
    rw [← hss]
    intro s hs
    rcases List.mem_append.1 hs with hs | hs
    · simp only [envRestrict, List.mem_cons, List.not_mem_nil, or_false] at hs
      rcases hs with rfl | rfl | rfl
      · decide
      · rw [List.mem_append, not_or]; exact ⟨by decide, hp⟩
      · decide
    · unfold kept at hs
      rw [List.mem_filterMap] at hs
      obtain ⟨k, hk, hs⟩ := hs
      rw [Option.map_eq_some_iff] at hs
      obtain ⟨v, hv, rfl⟩ := hs
      exact he _ (getenv_mem hv)
  unfold getSaneEnv
  dsimp only
  rw [hsz]
  dsimp only
  have h0 : Holds ⟨List.replicate (ss.length + 1) none, List.replicate (joined ss).length fill, 0, 0⟩ [] (ss.length + 1) (joined ss).length :=
    ⟨rfl, rfl, ⟨_, rfl⟩, by simp, ⟨_, rfl⟩, by simp⟩
  have hll := congrArg List.length hss
  rw [List.length_append] at hll
  obtain ⟨b1, e1, hb1⟩ := envLoop1_holds (envRestrict stdpath) _ [] h0 (by simp only [List.length_nil]; omega) (by
    rw [List.nil_append, ← hss, joined_append, List.length_append]; omega)
  rw [List.nil_append] at hb1
  obtain ⟨b2, e2, hb2⟩ := envLoop2_holds env envPreserve b1 (envRestrict stdpath) hb1 (by omega) (by rw [hss]; exact Nat.le_refl _)
  rw [hss] at hb2
  rw [e1, Option.bind_some, e2, Option.bind_some]
  obtain ⟨g1, g2, ⟨r, g3⟩, g4, ⟨q, g5⟩, g6⟩ := hb2
  unfold EnvBlock.slot
  rw [if_pos (by omega)]
  refine ⟨_, rfl, ?_, ?_, ?_⟩
  · simp only [List.length_set]; omega
  · dsimp only; omega
  · dsimp only
    have hr : r.length = 1 := by
      have := congrArg List.length g3
      rw [List.length_append, starts_length] at this; omega
    obtain ⟨x, rfl⟩ : ∃ x, r = [x] := by
      cases r with
      | nil => simp at hr
      | cons x r =>
        cases r with
        | nil => exact ⟨x, rfl⟩
        | cons _ _ => simp at hr
    rw [g3, g1, ← starts_length ss 0, List.set_append_right _ _ (Nat.le_refl _), Nat.sub_self]
    exact strings_holds b2.mem ss 0 q [] hz (by rw [List.drop_zero, g5])

theorem valueIn_cons (k n v : List UInt8) (env : List (List UInt8)) (hk : (0x3D : UInt8) ∉ k) (hn : (0x3D : UInt8) ∉ n) :
    valueIn ((n ++ 0x3D :: v) :: env) k = if k = n then some v else valueIn env k := by
  rw [← getenv_eq, ← getenv_eq, getenv]
  by_cases h : k = n
  · subst h
    rw [if_pos rfl, if_pos]
    · congr 1
      rw [List.drop_append]; simp
    · rw [List.take_append]; simp [List.take_of_length_le]
  · rw [if_neg h, if_neg]
    intro g
    apply h
    have : ∃ t, n ++ 0x3D :: v = k ++ 0x3D :: t := ⟨_, by
      have := (List.take_append_drop (k.length + 1) (n ++ 0x3D :: v)).symm
      rw [g, List.append_assoc, List.singleton_append] at this
      exact this⟩
    obtain ⟨t, ht⟩ := this
    have e : ∀ a b : List UInt8, (0x3D : UInt8) ∉ a → (a ++ 0x3D :: b).takeWhile (· ≠ 0x3D) = a := by
      intro a b ha
      induction a with
      | nil => simp
      | cons x a ih =>
        simp only [List.mem_cons, not_or] at ha
        simp only [List.cons_append]
        rw [List.takeWhile_cons_of_pos (by simpa using Ne.symm ha.1), ih ha.2]
    have := congrArg (List.takeWhile (· ≠ 0x3D)) ht
    rw [e n v hn, e k t hk] at this
    exact this.symm

/-- **C47.** What `getenv` gives afterwards: the fixed values of IFS, PATH and TERM, the original values of DEBUG and TZ, and nothing else. -/
theorem C47_lookup (stdpath : List UInt8) (env : List (List UInt8)) (fill : UInt8) (hp : (0 : UInt8) ∉ stdpath) (he : ∀ s ∈ env, (0 : UInt8) ∉ s)
    (k : List UInt8) (hk : (0x3D : UInt8) ∉ k) : ∃ b l, getSaneEnv stdpath env fill = some b ∧ EnvBlock.strings b.mem b.ptrs = some l ∧
      getenv l k = if k = bs "IFS" then some [0x20, 0x09, 0x0A] else if k = bs "PATH" then some stdpath else if k = bs "TERM" then some (bs "dumb")
        else if k = bs "DEBUG" ∨ k = bs "TZ" then getenv env k else none := by
  obtain ⟨b, h1, _, _, h2⟩ := C47_strings stdpath env fill hp he
  refine ⟨b, _, h1, h2, ?_⟩
  rw [getenv_eq, getenv_eq]
  simp only [fixedVars, keptVars, List.map_cons, List.map_nil, List.cons_append, List.nil_append]
  rw [valueIn_cons _ _ _ _ hk (by decide), valueIn_cons _ _ _ _ hk (by decide), valueIn_cons _ _ _ _ hk (by decide)]
  by_cases c1 : k = bs "IFS"
  · rw [if_pos c1, if_pos c1]
  rw [if_neg c1, if_neg c1]
  by_cases c2 : k = bs "PATH"
  · rw [if_pos c2, if_pos c2]
  rw [if_neg c2, if_neg c2]
  by_cases c3 : k = bs "TERM"
  · rw [if_pos c3, if_pos c3]
  rw [if_neg c3, if_neg c3]
  have hnil : valueIn [] k = none := rfl
  have hne : bs "TZ" ≠ bs "DEBUG" := by decide
  have hd : (0x3D : UInt8) ∉ bs "DEBUG" := by decide
  have ht : (0x3D : UInt8) ∉ bs "TZ" := by decide
  cases d : valueIn env (bs "DEBUG") with
  | none =>
    cases t : valueIn env (bs "TZ") with
    | none =>
      simp only [List.filterMap_cons, d, t, Option.map_none, List.filterMap_nil, hnil]
      split
      · rename_i h; rcases h with rfl | rfl
        · exact d.symm
        · exact t.symm
      · rfl
    | some w =>
      simp only [List.filterMap_cons, d, t, Option.map_none, Option.map_some, List.filterMap_nil]
      rw [valueIn_cons _ _ _ _ hk ht, hnil]
      by_cases c : k = bs "TZ"
      · rw [if_pos c, if_pos (Or.inr c), c, t]
      · rw [if_neg c]
        split
        · rename_i h; rcases h with rfl | h
          · exact d.symm
          · exact absurd h c
        · rfl
  | some v =>
    cases t : valueIn env (bs "TZ") with
    | none =>
      simp only [List.filterMap_cons, d, t, Option.map_none, Option.map_some, List.filterMap_nil]
      rw [valueIn_cons _ _ _ _ hk hd, hnil]
      by_cases c : k = bs "DEBUG"
      · rw [if_pos c, if_pos (Or.inl c), c, d]
      · rw [if_neg c]
        split
        · rename_i h; rcases h with h | rfl
          · exact absurd h c
          · exact t.symm
        · rfl
    | some w =>
      simp only [List.filterMap_cons, d, t, Option.map_some, List.filterMap_nil]
      rw [valueIn_cons _ _ _ _ hk hd, valueIn_cons _ _ _ _ hk ht, hnil]
      by_cases c : k = bs "DEBUG"
      · rw [if_pos c, if_pos (Or.inl c), c, d]
      · rw [if_neg c]
        by_cases c' : k = bs "TZ"
        · rw [if_pos c', if_pos (Or.inr c'), c', t]
        · rw [if_neg c', if_neg (by rintro (h | h); exact c h; exact c' h)]

/-- C47 on a case: LD_PRELOAD and the caller's PATH are dropped, TZ is kept. -/
example : (getSaneEnv (bs "/bin") [bs "LD_PRELOAD=/x", bs "PATH=/evil", bs "TZ=UTC", bs "TZ=CET"] 7).bind (fun b => EnvBlock.strings b.mem b.ptrs) =
    some [bs "IFS= \t\n", bs "PATH=/bin", bs "TERM=dumb", bs "TZ=UTC"] := by decide +kernel

example : (0 : UInt8) ∉ bs "/usr/bin:/bin" ∧ (∀ s ∈ [bs "TZ=UTC", bs "junk"], (0 : UInt8) ∉ s) ∧ (0x3D : UInt8) ∉ bs "TZ" := by decide

end Conman
