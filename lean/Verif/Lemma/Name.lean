import Verif.Model.Name
import Verif.Spec.Name
import Verif.Lemma.Dec

namespace Conman
open Spec

theorem isDig_eq (c : UInt8) : isDig c = isDigit c := rfl

theorem stem_trail (x : List UInt8) : stem x ++ trail x = x := by
  unfold stem trail
  rw [← List.reverse_append, List.takeWhile_append_dropWhile, List.reverse_reverse]

theorem trail_digits (x : List UInt8) : ∀ c ∈ trail x, isDig c = true := by
  intro c hc
  unfold trail at hc
  rw [List.mem_reverse] at hc
  have := List.all_takeWhile (p := isDig) (l := x.reverse)
  exact List.all_eq_true.1 this c hc

theorem stem_end (x : List UInt8) {l : List UInt8} {c : UInt8} (h : stem x = l ++ [c]) : isDig c = false := by
  unfold stem at h
  have h2 : x.reverse.dropWhile isDig = c :: l.reverse := by
    have := congrArg List.reverse h
    rw [List.reverse_reverse, List.reverse_append] at this
    simpa using this
  have := List.head?_dropWhile_not (p := isDig) x.reverse
  rw [h2] at this
  simpa using this

theorem trailLoop_digits : ∀ (n : List UInt8), (∀ c ∈ n, isDig c = true) → ∀ (i : Nat) (q : Option Nat), n ≠ [] →
    trailLoop i q n = some (q.getD i)
  | [], _, _, _, h => absurd rfl h
  | c :: n, hd, i, q, _ => by
    have hc : isDigit c = true := hd c (by simp)
    rw [trailLoop, if_neg (by simp [hc])]
    by_cases hn : n = []
    · subst hn; rw [trailLoop]; cases q <;> simp
    · rw [trailLoop_digits n (fun c hc => hd c (by simp [hc])) _ _ hn]
      cases q <;> simp

theorem trailLoop_append : ∀ (s n : List UInt8) (i : Nat) (q : Option Nat), trailLoop i q (s ++ n) = trailLoop (i + s.length) (trailLoop i q s) n
  | [], _, _, _ => rfl
  | c :: s, n, i, q => by
    rw [List.cons_append, trailLoop, trailLoop_append s n, trailLoop, List.length_cons]
    congr 1; omega

theorem findTrailingInt_eq (x : List UInt8) : findTrailingInt x = if trail x = [] then none else some (stem x).length := by
  unfold findTrailingInt
  conv => lhs; rw [← stem_trail x]
  rw [trailLoop_append, Nat.zero_add]
  have hs : trailLoop 0 none (stem x) = none := by
    cases hl : (stem x).getLast? with
    | none => rw [List.getLast?_eq_none_iff.1 hl]; rfl
    | some c =>
      obtain ⟨l, hl⟩ := List.getLast?_eq_some_iff.1 hl
      have := stem_end x hl
      rw [hl, trailLoop_append, trailLoop, trailLoop, if_pos]; exact this
  rw [hs]
  by_cases ht : trail x = []
  · rw [ht, if_pos rfl]; rfl
  · rw [if_neg ht, trailLoop_digits _ (trail_digits x) _ _ ht]; rfl

/-- Where the number starts, seen from position `k`. -/
def intAt (k : Nat) (s n : List UInt8) : Option Nat := if n = [] then none else some (k + s.length)

theorem compareObjs_eq (x y : List UInt8) :
    compareObjs x y = cmpLoop (intAt 0 (stem x) (trail x)) (intAt 0 (stem y) (trail y)) 0 (stem x ++ trail x) (stem y ++ trail y) := by
  unfold compareObjs intAt
  rw [findTrailingInt_eq, findTrailingInt_eq, stem_trail, stem_trail, Nat.zero_add, Nat.zero_add]

theorem intAt_cons (k : Nat) (c : UInt8) (s n : List UInt8) : intAt k (c :: s) n = intAt (k + 1) s n := by
  unfold intAt
  split
  · rfl
  · rw [List.length_cons]; congr 1; omega

theorem intAt_ne (k : Nat) (c : UInt8) (s n : List UInt8) : intAt k (c :: s) n ≠ some k := by
  unfold intAt
  split
  · simp
  · rw [List.length_cons, ne_eq, Option.some.injEq]; omega

theorem intAt_nil (k : Nat) (c : UInt8) (n : List UInt8) : intAt k [] (c :: n) = some k := by
  unfold intAt; simp

theorem schar_inj {a b : UInt8} (h : schar a = schar b) : a = b := by
  unfold schar at h
  have ha := a.toNat_lt
  have hb := b.toNat_lt
  apply UInt8.toNat_inj.1
  split at h <;> split at h <;> omega

theorem schar_zero : schar 0 = 0 := by decide

/-- The key by which names are ordered. -/
def nameKey (s n : List UInt8) : List (Int × Int) := s.map (fun c => (schar c, 0)) ++ [if n = [] then (0, 0) else (48, (numVal n : Int))]

/-- Lexicographic comparison. -/
def lexCmp : List (Int × Int) → List (Int × Int) → Int
  | [], [] => 0
  | [], _ :: _ => -1
  | _ :: _, [] => 1
  | a :: l, b :: m => if a.1 ≠ b.1 then a.1 - b.1 else if a.2 ≠ b.2 then a.2 - b.2 else lexCmp l m

theorem lexCmp_anti : ∀ l m, lexCmp m l = - lexCmp l m
  | [], [] => rfl
  | [], _ :: _ => rfl
  | _ :: _, [] => rfl
  | a :: l, b :: m => by
    rw [lexCmp, lexCmp]
    by_cases h1 : a.1 = b.1
    · by_cases h2 : a.2 = b.2
      · rw [if_neg (by simp [h1]), if_neg (by simp [h2]), if_neg (by simp [h1]), if_neg (by simp [h2])]; exact lexCmp_anti l m
      · rw [if_neg (by simp [h1]), if_pos (fun e => h2 e.symm), if_neg (by simp [h1]), if_pos h2]; omega
    · rw [if_pos (fun e => h1 e.symm), if_pos h1]; omega

theorem lexCmp_trans : ∀ l m n, lexCmp l m ≤ 0 → lexCmp m n ≤ 0 → lexCmp l n ≤ 0
  | [], _, [], _, _ => by simp [lexCmp]
  | [], _, _ :: _, _, _ => by simp [lexCmp]
  | _ :: _, [], _, h, _ => by simp [lexCmp] at h
  | _ :: _, _ :: _, [], _, h => by simp [lexCmp] at h
  | a :: l, b :: m, c :: n, h1, h2 => by
    rw [lexCmp] at h1 h2 ⊢
    split at h1
    · split at h2
      · rw [if_pos (by omega)]; omega
      · rw [if_pos (by omega)]; omega
    · split at h2
      · rw [if_pos (by omega)]; omega
      · rw [if_neg (by omega)]
        split at h1
        · split at h2
          · rw [if_pos (by omega)]; omega
          · rw [if_pos (by omega)]; omega
        · split at h2
          · rw [if_pos (by omega)]; omega
          · rw [if_neg (by omega)]; exact lexCmp_trans l m n h1 h2

theorem schar_digit {c : UInt8} (h : isDig c = true) : 48 ≤ schar c ∧ schar c ≤ 57 := by
  unfold isDig at h
  simp only [Bool.and_eq_true, decide_eq_true_eq] at h
  have h1 := UInt8.le_iff_toNat_le.1 h.1
  have h2 := UInt8.le_iff_toNat_le.1 h.2
  simp at h1 h2
  unfold schar; split <;> omega

theorem schar_nondigit {c : UInt8} (h : isDig c = false) : schar c < 48 ∨ 57 < schar c := by
  unfold isDig at h
  simp only [Bool.and_eq_false_iff, decide_eq_false_iff_not, UInt8.le_iff_toNat_le] at h
  simp at h
  have := c.toNat_lt
  unfold schar; split <;> omega

theorem schar_ne {c : UInt8} (h : c ≠ 0) : schar c ≠ 0 := fun e => h (schar_inj (by rw [e, schar_zero]))

theorem atoi_trail {n : List UInt8} (h : ∀ c ∈ n, isDig c = true) (hv : numVal n ≤ 2147483647) : atoi n = some (numVal n : Int) := by
  refine atoi_digits (fun c hc => ?_) hv
  have := schar_digit (h c hc)
  have := h c hc
  simpa [isDig, digit] using this

/-- Comparison follows the keys. -/
theorem cmpLoop_key (n n' : List UInt8) (hn : ∀ c ∈ n, isDig c = true) (hn' : ∀ c ∈ n', isDig c = true)
    (hv : numVal n ≤ 2147483647) (hv' : numVal n' ≤ 2147483647) : ∀ (s s' : List UInt8) (k : Nat), (0 : UInt8) ∉ s → (0 : UInt8) ∉ s' →
    (n ≠ [] → ∀ c r, s' = s ++ c :: r → isDig c = false) → (n' ≠ [] → ∀ c r, s = s' ++ c :: r → isDig c = false) →
    ∃ v, cmpLoop (intAt k s n) (intAt k s' n') k (s ++ n) (s' ++ n') = some v ∧
      (v < 0 ↔ lexCmp (nameKey s n) (nameKey s' n') < 0) ∧ (v = 0 ↔ lexCmp (nameKey s n) (nameKey s' n') = 0)
  | [], [], k, _, _, _, _ => by
    cases n with
    | nil =>
      cases n' with
      | nil => exact ⟨0, rfl, by simp [nameKey, lexCmp]⟩
      | cons d' t' =>
        have := schar_digit (hn' d' (by simp))
        refine ⟨_, rfl, ?_⟩
        simp only [peekC, nameKey, lexCmp, List.map_nil, List.nil_append, List.headD_cons]
        simp; omega
    | cons d t =>
      cases n' with
      | nil =>
        have := schar_digit (hn d (by simp))
        have hd0 : ¬ d = (([] ++ [] : List UInt8)).headD 0 := by
          intro e; have e : d = 0 := e
          rw [e, schar_zero] at this; omega
        refine ⟨schar d - peekC [], ?_, ?_⟩
        · rw [List.nil_append, cmpLoop, if_neg (by simp [intAt]), if_neg hd0]; rfl
        · simp only [peekC, nameKey, lexCmp, List.map_nil, List.nil_append]
          simp [schar_zero]; omega
      | cons d' t' =>
        refine ⟨numVal (d :: t) - numVal (d' :: t'), ?_, ?_⟩
        · rw [List.nil_append, cmpLoop, if_pos ⟨intAt_nil .., intAt_nil ..⟩, List.nil_append, atoi_trail hn hv, atoi_trail hn' hv']; rfl
        · simp only [nameKey, lexCmp, List.map_nil, List.nil_append]
          simp only [reduceCtorEq, if_false, ne_eq, not_true_eq_false]
          split <;> omega
  | [], c' :: t', k, _, h0', hx, _ => by
    have hc0 := schar_ne (c := c') (fun e => h0' (by simp [e]))
    cases n with
    | nil =>
      refine ⟨_, rfl, ?_⟩
      simp only [peekC, nameKey, lexCmp, List.map_nil, List.nil_append, List.map_cons, List.cons_append, List.headD_cons]
      simp only [if_true]
      rw [if_pos (by omega)]; omega
    | cons d t =>
      have hcd := hx (by simp) c' t' rfl
      have h1 := schar_nondigit hcd
      have h2 := schar_digit (hn d (by simp))
      refine ⟨schar d - schar c', ?_, ?_⟩
      · rw [List.nil_append, cmpLoop, if_neg (fun e => intAt_ne k c' t' n' e.2), if_neg]
        · rfl
        · intro e
          have e : d = c' := e
          rw [e] at h2; omega
      · simp only [nameKey, lexCmp, List.map_nil, List.nil_append, List.map_cons, List.cons_append]
        simp only [reduceCtorEq, if_false]
        rw [if_pos (by omega)]; omega
  | c :: t, [], k, h0, _, _, hx => by
    have hc0 := schar_ne (c := c) (fun e => h0 (by simp [e]))
    cases n' with
    | nil =>
      refine ⟨schar c - peekC [], ?_, ?_⟩
      · rw [List.cons_append, cmpLoop, if_neg (fun e => intAt_ne k c t n e.1), if_neg]
        · rfl
        · intro e
          exact h0 (by rw [show c = 0 from e]; simp)
      · simp only [peekC, nameKey, lexCmp, List.map_nil, List.nil_append, List.map_cons, List.cons_append, List.headD_nil, schar_zero]
        simp only [if_true]
        rw [if_pos (by omega)]; omega
    | cons d t' =>
      have hcd := hx (by simp) c t rfl
      have h1 := schar_nondigit hcd
      have h2 := schar_digit (hn' d (by simp))
      refine ⟨schar c - schar d, ?_, ?_⟩
      · rw [List.cons_append, cmpLoop, if_neg (fun e => intAt_ne k c t n e.1), if_neg]
        · rfl
        · intro e
          have e : c = d := e
          rw [← e] at h2; omega
      · simp only [nameKey, lexCmp, List.map_nil, List.nil_append, List.map_cons, List.cons_append]
        simp only [reduceCtorEq, if_false]
        rw [if_pos (by omega)]; omega
  | c :: t, c' :: t', k, h0, h0', hx, hx' => by
    rw [List.cons_append, List.cons_append, cmpLoop, if_neg (fun e => intAt_ne k c t n e.1)]
    by_cases hc : c = c'
    · subst hc
      rw [if_pos (by rfl), intAt_cons, intAt_cons]
      obtain ⟨v, e1, e2, e3⟩ := cmpLoop_key n n' hn hn' hv hv' t t' (k + 1) (fun h => h0 (by simp [h])) (fun h => h0' (by simp [h]))
        (fun hh a r e => hx hh a r (by rw [e]; rfl)) (fun hh a r e => hx' hh a r (by rw [e]; rfl))
      have ek : lexCmp (nameKey (c :: t) n) (nameKey (c :: t') n') = lexCmp (nameKey t n) (nameKey t' n') := by
        simp [nameKey, lexCmp]
      exact ⟨v, e1, by rw [ek]; exact e2, by rw [ek]; exact e3⟩
    · have hs : schar c ≠ schar c' := fun e => hc (schar_inj e)
      refine ⟨schar c - schar c', by rw [if_neg (by simpa using hc)]; rfl, ?_⟩
      simp only [nameKey, lexCmp, List.map_cons, List.cons_append]
      rw [if_pos hs]; omega

/-- Exchanging the names changes the sign. -/
theorem cmpLoop_anti (n n' : List UInt8) : ∀ (s s' : List UInt8) (k : Nat), (0 : UInt8) ∉ s ++ n → (0 : UInt8) ∉ s' ++ n' →
    cmpLoop (intAt k s' n') (intAt k s n) k (s' ++ n') (s ++ n) = (cmpLoop (intAt k s n) (intAt k s' n') k (s ++ n) (s' ++ n')).map (- ·) := by
  -- walking over characters that are not both the start of a number
  have walk : ∀ (i i' : Option Nat) (x y : List UInt8) (k : Nat), (0 : UInt8) ∉ x → (0 : UInt8) ∉ y → (∀ j, k ≤ j → ¬ (i = some j ∧ i' = some j)) →
      cmpLoop i' i k y x = (cmpLoop i i' k x y).map (- ·) := by
    intro i i' x
    induction x with
    | nil =>
      intro y k _ hy h
      cases y with
      | nil => rfl
      | cons c y =>
        rw [cmpLoop, cmpLoop, if_neg (fun e => h k (Nat.le_refl _) ⟨e.2, e.1⟩), if_neg]
        · simp [peekC, schar_zero]
        · intro e; exact hy (by rw [show c = 0 from e]; simp)
    | cons c x ih =>
      intro y k hx hy h
      cases y with
      | nil =>
        rw [cmpLoop, cmpLoop, if_neg (fun e => h k (Nat.le_refl _) ⟨e.1, e.2⟩), if_neg]
        · simp [peekC, schar_zero]
        · intro e; exact hx (by rw [show c = 0 from e]; simp)
      | cons d y =>
        have e1 : ¬ (i = some k ∧ i' = some k) := h k (Nat.le_refl _)
        have e2 : ¬ (i' = some k ∧ i = some k) := fun e => e1 ⟨e.2, e.1⟩
        simp only [cmpLoop, if_neg e1, if_neg e2, List.headD_cons, List.drop_succ_cons, List.drop_zero, peekC]
        by_cases e : c = d
        · subst e
          simp only [if_true]
          exact ih y (k + 1) (fun g => hx (by simp [g])) (fun g => hy (by simp [g])) (fun j hj => h j (by omega))
        · rw [if_neg (fun g => e g.symm), if_neg e]
          simp only [Option.map_some, Option.some.injEq]; omega
  intro s
  induction s with
  | nil =>
    intro s' k h h'
    cases s' with
    | nil =>
      cases n with
      | nil => exact walk _ _ _ _ k h h' (fun j _ e => by simp [intAt] at e)
      | cons d t =>
        cases n' with
        | nil => exact walk _ _ _ _ k h h' (fun j _ e => by simp [intAt] at e)
        | cons d' t' =>
          rw [List.nil_append, List.nil_append, cmpLoop, cmpLoop, if_pos ⟨intAt_nil .., intAt_nil ..⟩, if_pos ⟨intAt_nil .., intAt_nil ..⟩]
          cases atoi (d :: t) <;> cases atoi (d' :: t') <;> simp
          omega
    | cons c' t' =>
      refine walk _ _ _ _ k h h' (fun j hj e => ?_)
      obtain ⟨e1, e2⟩ := e
      unfold intAt at e1 e2
      split at e1
      · simp at e1
      · split at e2
        · simp at e2
        · simp at e1 e2; omega
  | cons c t ih =>
    intro s' k h h'
    cases s' with
    | nil =>
      refine walk _ _ _ _ k h h' (fun j hj e => ?_)
      obtain ⟨e1, e2⟩ := e
      unfold intAt at e1 e2
      split at e1
      · simp at e1
      · split at e2
        · simp at e2
        · simp at e1 e2; omega
    | cons c' t' =>
      have e1 : ¬ (intAt k (c :: t) n = some k ∧ intAt k (c' :: t') n' = some k) := fun e => intAt_ne k c t n e.1
      have e2 : ¬ (intAt k (c' :: t') n' = some k ∧ intAt k (c :: t) n = some k) := fun e => intAt_ne k c t n e.2
      simp only [List.cons_append, cmpLoop, if_neg e1, if_neg e2, List.headD_cons, List.drop_succ_cons, List.drop_zero, peekC]
      by_cases e : c = c'
      · subst e
        simp only [if_true]
        rw [intAt_cons, intAt_cons]
        exact ih t' (k + 1) (fun g => h (by rw [List.cons_append]; simp only [List.mem_cons]; right; exact g)) (fun g => h' (by rw [List.cons_append]; simp only [List.mem_cons]; right; exact g))
      · rw [if_neg (fun g => e g.symm), if_neg e]
        simp only [Option.map_some, Option.some.injEq]; omega

end Conman
