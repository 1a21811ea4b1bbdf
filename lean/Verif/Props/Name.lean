import Verif.Lemma.Name
import Verif.Props.List

/-
C31: the order in which consoles are listed.
-/
namespace Conman
open Spec

/-- C31. Exchanging two names exchanges the outcome (where it is defined at all). -/
theorem C31_antisymmetric (x y : List UInt8) (hx : (0 : UInt8) ∉ x) (hy : (0 : UInt8) ∉ y) : compareObjs y x = (compareObjs x y).map (- ·) := by
  rw [compareObjs_eq, compareObjs_eq]
  exact cmpLoop_anti _ _ _ _ 0 (by rwa [stem_trail]) (by rwa [stem_trail])

theorem stem_of {s n : List UInt8} (hn : ∀ c ∈ n, isDig c = true) (hs : ∀ l c, s = l ++ [c] → isDig c = false) :
    stem (s ++ n) = s ∧ trail (s ++ n) = n := by
  have hd : ∀ (m : List UInt8) (r : List UInt8), (∀ c ∈ m, isDig c = true) → (∀ c t, r = c :: t → isDig c = false) →
      (m ++ r).takeWhile isDig = m ∧ (m ++ r).dropWhile isDig = r := by
    intro m r hm hr
    induction m with
    | nil =>
      cases r with
      | nil => exact ⟨rfl, rfl⟩
      | cons c t => simp [hr c t rfl]
    | cons c m ih =>
      have := ih (fun c h => hm c (by simp [h]))
      simp only [List.cons_append, List.takeWhile_cons, List.dropWhile_cons, hm c (by simp), if_true, this.1, this.2, and_self]
  have := hd n.reverse s.reverse (fun c h => hn c (by simpa using h)) (fun c t e => hs t.reverse c (by
    have := congrArg List.reverse e
    simpa using this))
  unfold stem trail
  rw [List.reverse_append, this.1, this.2, List.reverse_reverse, List.reverse_reverse]
  exact ⟨rfl, rfl⟩

/-- Walking over a common prefix before any number has started. -/
theorem cmpLoop_prefix (i i' : Option Nat) : ∀ (p a b : List UInt8) (k : Nat), (∀ j, k ≤ j → j < k + p.length → ¬ (i = some j ∧ i' = some j)) →
    cmpLoop i i' k (p ++ a) (p ++ b) = cmpLoop i i' (k + p.length) a b
  | [], _, _, _, _ => rfl
  | c :: p, a, b, k, h => by
    have e : ¬ (i = some k ∧ i' = some k) := h k (Nat.le_refl _) (by simp)
    simp only [List.cons_append, cmpLoop, if_neg e, List.headD_cons, if_true, List.drop_succ_cons, List.drop_zero]
    rw [cmpLoop_prefix i i' p a b (k + 1) (fun j h1 h2 => h j (by omega) (by rw [List.length_cons]; omega)), List.length_cons]
    congr 1; omega

/-- C31. Names that differ only in their trailing numbers compare as the numbers do, whatever the stem and however many digits (leading zeros
included), as long as both numbers fit 31 bits. -/
theorem C31_numeric (s m n : List UInt8) (hs : ∀ l c, s = l ++ [c] → isDig c = false) (hm : m ≠ []) (hn : n ≠ []) (hm' : ∀ c ∈ m, isDig c = true)
    (hn' : ∀ c ∈ n, isDig c = true) (vm : numVal m ≤ 2147483647) (vn : numVal n ≤ 2147483647) :
    compareObjs (s ++ m) (s ++ n) = some ((numVal m : Int) - numVal n) := by
  rw [compareObjs_eq, (stem_of hm' hs).1, (stem_of hm' hs).2, (stem_of hn' hs).1, (stem_of hn' hs).2]
  have e1 : intAt 0 s m = some s.length := by unfold intAt; rw [if_neg hm, Nat.zero_add]
  have e2 : intAt 0 s n = some s.length := by unfold intAt; rw [if_neg hn, Nat.zero_add]
  rw [cmpLoop_prefix _ _ _ _ _ 0 (fun j _ h => by rw [e1]; simp; omega), Nat.zero_add]
  cases m with
  | nil => exact absurd rfl hm
  | cons d t => rw [cmpLoop, if_pos ⟨e1, e2⟩, atoi_trail hm' vm, atoi_trail hn' vn]; rfl

/-- C31. Otherwise the first difference decides, byte by byte (bytes above 127 are negative): names which differ at some byte, and are not the same
stem with two numbers. -/
theorem C31_first_difference (p : List UInt8) (c d : UInt8) (a b : List UInt8) (hcd : c ≠ d)
    (h : ¬ (stem (p ++ c :: a) = stem (p ++ d :: b) ∧ trail (p ++ c :: a) ≠ [] ∧ trail (p ++ d :: b) ≠ [])) :
    compareObjs (p ++ c :: a) (p ++ d :: b) = some (schar c - schar d) := by
  have hi : ∀ j, j ≤ p.length → ¬ (findTrailingInt (p ++ c :: a) = some j ∧ findTrailingInt (p ++ d :: b) = some j) := by
    rw [findTrailingInt_eq, findTrailingInt_eq]
    intro j hj e
    split at e
    · simp at e
    · split at e
      · simp at e
      · rename_i h1 h2
        refine h ⟨?_, h1, h2⟩
        have g1 := congrArg (List.take j) (stem_trail (p ++ c :: a))
        have g2 := congrArg (List.take j) (stem_trail (p ++ d :: b))
        simp only [Option.some.injEq] at e
        rw [← e.1, List.take_left] at g1
        rw [← e.2, List.take_left] at g2
        rw [g1, g2, e.1, e.2, List.take_append_of_le_length hj, List.take_append_of_le_length hj]
  unfold compareObjs
  rw [cmpLoop_prefix _ _ _ _ _ 0 (fun j _ h => hi j (by omega)), Nat.zero_add, cmpLoop, if_neg (hi _ (Nat.le_refl _)), if_neg (by simpa using hcd)]
  rfl

/-- C31. A proper prefix of a name comes before it, unless both are the same stem with a number. -/
theorem C31_prefix_first (p : List UInt8) (d : UInt8) (b : List UInt8)
    (h : ¬ (stem p = stem (p ++ d :: b) ∧ trail p ≠ [] ∧ trail (p ++ d :: b) ≠ [])) :
    compareObjs p (p ++ d :: b) = some (- schar d) := by
  have hi : ∀ j, j < p.length → ¬ (findTrailingInt p = some j ∧ findTrailingInt (p ++ d :: b) = some j) := by
    rw [findTrailingInt_eq, findTrailingInt_eq]
    intro j hj e
    split at e
    · simp at e
    · split at e
      · simp at e
      · rename_i h1 h2
        refine h ⟨?_, h1, h2⟩
        have g1 := congrArg (List.take j) (stem_trail p)
        have g2 := congrArg (List.take j) (stem_trail (p ++ d :: b))
        simp only [Option.some.injEq] at e
        rw [← e.1, List.take_left] at g1
        rw [← e.2, List.take_left] at g2
        rw [g1, g2, e.1, e.2, List.take_append_of_le_length (Nat.le_of_lt hj)]
  unfold compareObjs
  have := cmpLoop_prefix (findTrailingInt p) (findTrailingInt (p ++ d :: b)) p [] (d :: b) 0 (fun j _ h => hi j (by omega))
  rw [List.append_nil] at this
  rw [this, cmpLoop]
  simp [peekC]

/-- C31, the part that holds. On names that can be ordered consistently (`Orderly`), the comparison is always defined and is a consistent order:
one way round it is "before" exactly if the other way round it is "after", and it is transitive.  Missing: names such as "a1b" beside "a2" and
"a10" (see `C31_not_transitive`), and numbers of more than 31 bits (see `C31_number_too_big`). -/
theorem C31_consistent_partial (names : List (List UInt8)) (h : Orderly names) :
    (∀ x ∈ names, ∀ y ∈ names, (compareObjs x y).isSome) ∧
    Spec.TotalPreorder (fun x y : {x // x ∈ names} => (compareObjs x.1 y.1).getD 0) := by
  have key : ∀ x ∈ names, ∀ y ∈ names, ∃ v, compareObjs x y = some v ∧
      (v < 0 ↔ lexCmp (nameKey (stem x) (trail x)) (nameKey (stem y) (trail y)) < 0) ∧
      (v = 0 ↔ lexCmp (nameKey (stem x) (trail x)) (nameKey (stem y) (trail y)) = 0) := by
    intro x hx y hy
    rw [compareObjs_eq]
    refine cmpLoop_key _ _ (trail_digits x) (trail_digits y) (h.fits x hx) (h.fits y hy) _ _ 0 ?_ ?_ (h.apart x hx y hy) (h.apart y hy x hx)
    · intro e; exact h.nonul x hx (by rw [← stem_trail x]; exact List.mem_append_left _ e)
    · intro e; exact h.nonul y hy (by rw [← stem_trail y]; exact List.mem_append_left _ e)
  refine ⟨fun x hx y hy => by obtain ⟨v, e, _⟩ := key x hx y hy; rw [e]; rfl, ⟨?_, ?_⟩⟩
  · intro x y
    obtain ⟨v, e, h1, h2⟩ := key x.1 x.2 y.1 y.2
    obtain ⟨v', e', h1', h2'⟩ := key y.1 y.2 x.1 x.2
    simp only [e, e', Option.getD_some]
    rw [lexCmp_anti] at h1' h2'
    omega
  · intro x y z hxy hyz
    obtain ⟨v, e, h1, h2⟩ := key x.1 x.2 y.1 y.2
    obtain ⟨v', e', h1', h2'⟩ := key y.1 y.2 z.1 z.2
    obtain ⟨v'', e'', h1'', h2''⟩ := key x.1 x.2 z.1 z.2
    simp only [e, e', e'', Option.getD_some] at hxy hyz ⊢
    have := lexCmp_trans (nameKey (stem x.1) (trail x.1)) (nameKey (stem y.1) (trail y.1)) (nameKey (stem z.1) (trail z.1)) (by omega) (by omega)
    omega

theorem stem_trail_eq {x y : List UInt8} (h : stem x = stem y) (h' : trail x = trail y) : x = y := by
  rw [← stem_trail x, ← stem_trail y, h, h']

/-- C31. Among orderly names, two compare equal only if they are the same name, or the same stem with the same number written differently. -/
theorem C31_ties_partial (names : List (List UInt8)) (h : Orderly names) (x y : List UInt8) (hx : x ∈ names) (hy : y ∈ names) :
    compareObjs x y = some 0 ↔ x = y ∨ (stem x = stem y ∧ trail x ≠ [] ∧ trail y ≠ [] ∧ numVal (trail x) = numVal (trail y)) := by
  have hself : compareObjs x x = some 0 := by
    have h1 := (C31_consistent_partial names h).1 x hx x hx
    have h2 := C31_antisymmetric x x (h.nonul x hx) (h.nonul x hx)
    cases e : compareObjs x x with
    | none => rw [e] at h1; simp at h1
    | some v =>
      rw [e] at h2
      simp only [Option.map_some, Option.some.injEq] at h2
      have : v = 0 := by omega
      rw [this]
  constructor
  · intro e
    refine Classical.or_iff_not_imp_left.2 fun hne => ?_
    apply Classical.byContradiction
    intro hn
    have hn' : ¬ (stem x = stem y ∧ trail x ≠ [] ∧ trail y ≠ []) := by
      rintro ⟨h1, h2, h3⟩
      have := C31_numeric (stem x) (trail x) (trail y) (fun l c e => stem_end x e) h2 h3 (trail_digits x) (trail_digits y) (h.fits x hx) (h.fits y hy)
      rw [stem_trail, show stem x ++ trail y = y by rw [h1, stem_trail], e] at this
      simp only [Option.some.injEq] at this
      exact hn ⟨h1, h2, h3, by omega⟩
    -- the first difference
    have split : ∀ (a b : List UInt8), a ≠ b → (∃ p c d r t, a = p ++ c :: r ∧ b = p ++ d :: t ∧ c ≠ d) ∨ (∃ d t, b = a ++ d :: t) ∨ (∃ d t, a = b ++ d :: t) := by
      intro a
      induction a with
      | nil =>
        intro b hb
        cases b with
        | nil => exact absurd rfl hb
        | cons d t => exact Or.inr (Or.inl ⟨d, t, rfl⟩)
      | cons c a ih =>
        intro b hb
        cases b with
        | nil => exact Or.inr (Or.inr ⟨c, a, rfl⟩)
        | cons d b =>
          by_cases hcd : c = d
          · subst hcd
            rcases ih b (fun e => hb (by rw [e])) with ⟨p, u, v, r, t, e1, e2, e3⟩ | ⟨d, t, e⟩ | ⟨d, t, e⟩
            · exact Or.inl ⟨c :: p, u, v, r, t, by rw [e1]; rfl, by rw [e2]; rfl, e3⟩
            · exact Or.inr (Or.inl ⟨d, t, by rw [e]; rfl⟩)
            · exact Or.inr (Or.inr ⟨d, t, by rw [e]; rfl⟩)
          · exact Or.inl ⟨[], c, d, a, b, rfl, rfl, hcd⟩
    have h0 := h.nonul x hx
    have h0' := h.nonul y hy
    rcases split x y hne with ⟨p, c, d, r, t, e1, e2, e3⟩ | ⟨d, t, e1⟩ | ⟨d, t, e1⟩
    · subst e1 e2
      rw [C31_first_difference p c d r t e3 hn'] at e
      simp only [Option.some.injEq] at e
      exact e3 (schar_inj (by omega))
    · subst e1
      rw [C31_prefix_first x d t hn'] at e
      simp only [Option.some.injEq] at e
      exact schar_ne (c := d) (fun g => h0' (by simp [g])) (by omega)
    · subst e1
      rw [C31_antisymmetric y _ h0' h0, C31_prefix_first y d t (fun g => hn' ⟨g.1.symm, g.2.2, g.2.1⟩)] at e
      simp only [Option.map_some, Option.some.injEq] at e
      exact schar_ne (c := d) (fun g => h0 (by simp [g])) (by omega)
  · rintro (e | ⟨h1, h2, h3, h4⟩)
    · rw [← e]; exact hself
    · have := C31_numeric (stem x) (trail x) (trail y) (fun l c e => stem_end x e) h2 h3 (trail_digits x) (trail_digits y) (h.fits x hx) (h.fits y hy)
      rw [stem_trail, show stem x ++ trail y = y by rw [h1, stem_trail]] at this
      rw [this, h4]; simp

/-- C31. Listing orderly consoles: sorting any list of them (built by whatever operations) gives the same consoles in ascending order. -/
theorem C31_listing_partial (names : List (List UInt8)) (h : Orderly names) {s : CList {x // x ∈ names}} {q : Seq {x // x ∈ names}}
    (hr : CList.Reach s q) : ∃ s' xs ys, s.sort (fun x y => (compareObjs x.1 y.1).getD 0) = some s' ∧ s.destroy = some xs ∧ s'.destroy = some ys ∧
      ys.Perm xs ∧ ys.Pairwise (fun x y => ∃ v, compareObjs x.1 y.1 = some v ∧ v ≤ 0) := by
  have hc := C31_consistent_partial names h
  obtain ⟨s', xs, ys, e1, e2, e3, e4, e5, _⟩ := C30_stable_sort hr hc.2
  refine ⟨s', xs, ys, e1, e2, e3, e4, e5.imp ?_⟩
  intro x y hxy
  have := hc.1 x.1 x.2 y.1 y.2
  cases e : compareObjs x.1 y.1 with
  | none => rw [e] at this; simp at this
  | some v => rw [e] at hxy; exact ⟨v, rfl, hxy⟩

/-- C31. If no two of them are one stem with one number written in two ways, the listing does not depend on the order of configuration. -/
theorem C31_same_listing_partial (names : List (List UInt8)) (h : Orderly names)
    (hd : ∀ x ∈ names, ∀ y ∈ names, stem x = stem y → trail x ≠ [] → trail y ≠ [] → numVal (trail x) = numVal (trail y) → x = y)
    {s t : CList {x // x ∈ names}} {q r : Seq {x // x ∈ names}} (hs : CList.Reach s q) (ht : CList.Reach t r)
    {xs ys : List {x // x ∈ names}} (ex : s.destroy = some xs) (ey : t.destroy = some ys) (hp : xs.Perm ys) :
    ∃ s' t' zs, s.sort (fun x y => (compareObjs x.1 y.1).getD 0) = some s' ∧ t.sort (fun x y => (compareObjs x.1 y.1).getD 0) = some t' ∧
      s'.destroy = some zs ∧ t'.destroy = some zs := by
  obtain ⟨s', xs', as, e1, e2, e3, e4, e5⟩ := C31_listing_partial names h hs
  obtain ⟨t', ys', bs, f1, f2, f3, f4, f5⟩ := C31_listing_partial names h ht
  rw [ex] at e2; rw [ey] at f2
  cases e2; cases f2
  have hab : as.Perm bs := e4.trans (hp.trans f4.symm)
  have : as = bs := by
    refine hab.eq_of_pairwise ?_ e5 f5
    rintro x y _ _ ⟨v, ev, hv⟩ ⟨w, ew, hw⟩
    have := C31_antisymmetric x.1 y.1 (h.nonul _ x.2) (h.nonul _ y.2)
    rw [ev, ew] at this
    simp only [Option.map_some, Option.some.injEq] at this
    have hv0 : v = 0 := by omega
    rw [hv0] at ev
    rcases (C31_ties_partial names h x.1 y.1 x.2 y.2).1 ev with e | ⟨h1, h2, h3, h4⟩
    · exact Subtype.ext e
    · exact Subtype.ext (hd _ x.2 _ y.2 h1 h2 h3 h4)
  exact ⟨s', t', as, e1, f1, e3, by rw [f3, this]⟩

/-- C31 fails in general: "a2" is before "a10", "a10" before "a1b", and "a1b" before "a2". -/
theorem C31_not_transitive : ∃ u v w, compareObjs (bs "a2") (bs "a10") = some u ∧ u < 0 ∧ compareObjs (bs "a10") (bs "a1b") = some v ∧ v < 0 ∧
    compareObjs (bs "a1b") (bs "a2") = some w ∧ w < 0 :=
  ⟨-8, -50, -1, by decide +kernel, by decide, by decide +kernel, by decide, by decide +kernel, by decide⟩

/-- So what is listed first depends on the order in which the same consoles were configured. -/
theorem C31_listing_depends_on_order :
    ((CList.create : CList (List UInt8)).run [.append (bs "a2") (some 1), .append (bs "a10") (some 2), .append (bs "a1b") (some 3),
      .sort (fun x y => (compareObjs x y).getD 0)]).map (fun r => r.1.destroy) = some (some [bs "a2", bs "a10", bs "a1b"]) ∧
    ((CList.create : CList (List UInt8)).run [.append (bs "a1b") (some 1), .append (bs "a2") (some 2), .append (bs "a10") (some 3),
      .sort (fun x y => (compareObjs x y).getD 0)]).map (fun r => r.1.destroy) = some (some [bs "a1b", bs "a2", bs "a10"]) :=
  ⟨by decide +kernel, by decide +kernel⟩

/-- A number of more than 31 bits makes the comparison undefined. -/
theorem C31_number_too_big : compareObjs (bs "a2147483648") (bs "a1") = none := by decide +kernel

/-! Cases. -/

example : compareObjs (bs "n9") (bs "n10") = some (-1) := by decide +kernel
example : compareObjs (bs "n007") (bs "n7") = some 0 := by decide +kernel
example : compareObjs (bs "n") (bs "n7") = some (-55) := by decide +kernel
example : compareObjs (bs "abc") (bs "abd") = some (-1) := by decide +kernel
example : stem (bs "rack2-node10") = bs "rack2-node" ∧ trail (bs "rack2-node10") = bs "10" := by decide +kernel

theorem orderly_demo : Orderly [bs "n1", bs "n2", bs "n10", bs "n", bs "m", bs "nx3"] where
  nonul := by decide +kernel
  apart := by
    intro x hx y hy ht c r e
    have key : ∀ x ∈ [bs "n1", bs "n2", bs "n10", bs "n", bs "m", bs "nx3"], ∀ y ∈ [bs "n1", bs "n2", bs "n10", bs "n", bs "m", bs "nx3"],
        trail x ≠ [] → isDig ((stem y).drop (stem x).length |>.headD 0) = false := by decide +kernel
    have := key x hx y hy ht
    rw [e, List.drop_left] at this
    exact this
  fits := by decide +kernel

example : compareObjs (bs "n") (bs "nx3") = some (-120) := by decide +kernel

end Conman
