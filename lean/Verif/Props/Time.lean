import Verif.Lemma.Dec
import Verif.Props.CStr
import Verif.Model.Time
import Verif.Spec.Time

/-
C27: elapsed times.
-/
namespace Conman
open Spec

theorem readDelta_digits : ∀ (d r : List UInt8) (t cur : Nat), (∀ c ∈ d, digit c) →
    readDelta t cur (d ++ r) = readDelta t (d.foldl (fun a c => 10 * a + (c.toNat - 0x30)) cur) r
  | [], _, _, _, _ => rfl
  | c :: d, r, t, cur, h => by
    have hc := h c (by simp)
    rw [List.cons_append, readDelta, if_pos (show 0x30 ≤ c ∧ c ≤ 0x39 from hc), readDelta_digits d r t _ (fun x hx => h x (by simp [hx])), List.foldl_cons]

theorem readDelta_field (v : Nat) (u : UInt8) (hu : ¬ digit u) (t : Nat) (r : List UInt8) :
    readDelta t 0 (dec v ++ [u] ++ r) = readDelta (t + v * unitSeconds u) 0 r := by
  obtain ⟨_, h2, h3, _⟩ := dec_spec v
  rw [List.append_assoc, readDelta_digits _ _ _ _ h2, List.singleton_append, readDelta, if_neg (show ¬ (0x30 ≤ u ∧ u ≤ 0x39) from hu)]
  unfold digitsVal at h3
  rw [h3]

/-- A field of the text. -/
def field (f : Nat × UInt8) : List UInt8 := dec f.1 ++ [f.2]

theorem readDelta_fields : ∀ (fs : List (Nat × UInt8)) (t : Nat), (∀ f ∈ fs, ¬ digit f.2) →
    readDelta t 0 (fs.map field).flatten = t + (fs.map (fun f => f.1 * unitSeconds f.2)).sum
  | [], t, _ => by simp [readDelta]
  | f :: fs, t, h => by
    rw [List.map_cons, List.flatten_cons]
    unfold field
    rw [readDelta_field _ _ (h f (by simp))]
    have := readDelta_fields fs (t + f.1 * unitSeconds f.2) (fun x hx => h x (by simp [hx]))
    unfold field at this
    rw [this, List.map_cons, List.sum_cons]
    omega

/-- All six fields. -/
def fields6 (n : Nat) : List (Nat × UInt8) :=
  [(n / 31449600, 0x79), (n / 604800 % 52, 0x77), (n / 86400 % 7, 0x64), (n / 3600 % 24, 0x68), (n / 60 % 60, 0x6D), (n % 60, 0x73)]

/-- Leading fields that are zero are left out, except the last. -/
def dropZero : List (Nat × UInt8) → List (Nat × UInt8)
  | [] => []
  | [f] => [f]
  | f :: g :: fs => if f.1 = 0 then dropZero (g :: fs) else f :: g :: fs

theorem decInt_nat (n : Nat) : decInt (n : Int) = dec n := by
  unfold decInt
  rw [if_neg (by omega)]
  simp

theorem deltaText_eq (n : Nat) (h : n < 31449600 * 2147483648) : deltaText n = ((dropZero (fields6 n)).map field).flatten := by
  have e1 : ((n : Int).tmod 60) = ((n % 60 : Nat) : Int) := by rw [Int.ofNat_tmod]; rfl
  have e2 : ((n : Int).tdiv 60) = ((n / 60 : Nat) : Int) := by rw [Int.ofNat_tdiv]; rfl
  have e3 : (((n / 60 : Nat) : Int).tmod 60) = ((n / 60 % 60 : Nat) : Int) := by rw [Int.ofNat_tmod]; rfl
  have e4 : (((n / 60 : Nat) : Int).tdiv 60) = ((n / 60 / 60 : Nat) : Int) := by rw [Int.ofNat_tdiv]; rfl
  have e5 : (((n / 60 / 60 : Nat) : Int).tmod 24) = ((n / 60 / 60 % 24 : Nat) : Int) := by rw [Int.ofNat_tmod]; rfl
  have e6 : (((n / 60 / 60 : Nat) : Int).tdiv 24) = ((n / 60 / 60 / 24 : Nat) : Int) := by rw [Int.ofNat_tdiv]; rfl
  have e7 : (((n / 60 / 60 / 24 : Nat) : Int).tmod 7) = ((n / 60 / 60 / 24 % 7 : Nat) : Int) := by rw [Int.ofNat_tmod]; rfl
  have e8 : (((n / 60 / 60 / 24 : Nat) : Int).tdiv 7) = ((n / 60 / 60 / 24 / 7 : Nat) : Int) := by rw [Int.ofNat_tdiv]; rfl
  have e9 : (((n / 60 / 60 / 24 / 7 : Nat) : Int).tmod 52) = ((n / 60 / 60 / 24 / 7 % 52 : Nat) : Int) := by rw [Int.ofNat_tmod]; rfl
  have e10 : (((n / 60 / 60 / 24 / 7 : Nat) : Int).tdiv 52) = ((n / 60 / 60 / 24 / 7 / 52 : Nat) : Int) := by rw [Int.ofNat_tdiv]; rfl
  have e11 : toInt32 ((n / 60 / 60 / 24 / 7 / 52 : Nat) : Int) = ((n / 60 / 60 / 24 / 7 / 52 : Nat) : Int) := by
    have : n / 60 / 60 / 24 / 7 / 52 < 2147483648 := by omega
    unfold toInt32
    omega
  have b1 : n / 60 / 60 = n / 3600 := Nat.div_div_eq_div_mul ..
  have b2 : n / 3600 / 24 = n / 86400 := Nat.div_div_eq_div_mul ..
  have b3 : n / 86400 / 7 = n / 604800 := Nat.div_div_eq_div_mul ..
  have b4 : n / 604800 / 52 = n / 31449600 := Nat.div_div_eq_div_mul ..
  have c1 : bs "y" = [0x79] := by decide
  have c2 : bs "w" = [0x77] := by decide
  have c3 : bs "d" = [0x64] := by decide
  have c4 : bs "h" = [0x68] := by decide
  have c5 : bs "m" = [0x6D] := by decide
  have c6 : bs "s" = [0x73] := by decide
  unfold deltaText
  simp only [e1, e2, e3, e4, e5, e6, e7, e8, e9, e10, e11, decInt_nat, c1, c2, c3, c4, c5, c6, gt_iff_lt]
  simp only [b1, b2, b3, b4]
  unfold fields6
  generalize n / 31449600 = y
  generalize n / 604800 % 52 = w
  generalize n / 86400 % 7 = d
  generalize n / 3600 % 24 = hh
  generalize n / 60 % 60 = mm
  generalize n % 60 = s
  have hp : ∀ k : Nat, (0 < (k : Int)) ↔ ¬ k = 0 := by intro k; omega
  simp only [hp]
  by_cases h1 : y = 0
  · simp only [h1, not_true_eq_false, if_false, dropZero, if_true]
    by_cases h2 : w = 0
    · simp only [h2, not_true_eq_false, if_false, if_true]
      by_cases h3 : d = 0
      · simp only [h3, not_true_eq_false, if_false, if_true]
        by_cases h4 : hh = 0
        · simp only [h4, not_true_eq_false, if_false, if_true]
          by_cases h5 : mm = 0
          · simp [h5, field]
          · simp [h5, field]
        · simp [h4, field]
      · simp [h3, field]
    · simp [h2, field]
  · simp [h1, dropZero, field]

theorem dropZero_sum : ∀ fs : List (Nat × UInt8), ((dropZero fs).map (fun f => f.1 * unitSeconds f.2)).sum = (fs.map (fun f => f.1 * unitSeconds f.2)).sum
  | [] => rfl
  | [_] => rfl
  | f :: g :: fs => by
    rw [dropZero]
    by_cases h : f.1 = 0
    · rw [if_pos h, dropZero_sum (g :: fs)]
      simp [h]
    · rw [if_neg h]

theorem dropZero_suffix : ∀ fs : List (Nat × UInt8), dropZero fs <:+ fs
  | [] => List.suffix_refl _
  | [_] => List.suffix_refl _
  | f :: g :: fs => by
    rw [dropZero]
    by_cases h : f.1 = 0
    · rw [if_pos h]; exact (dropZero_suffix (g :: fs)).trans (List.suffix_cons _ _)
    · rw [if_neg h]; exact List.suffix_refl _

theorem dropZero_head : ∀ fs : List (Nat × UInt8), fs ≠ [] → dropZero fs ≠ [] ∧ ((dropZero fs).length = 1 ∨ ∃ f r, dropZero fs = f :: r ∧ f.1 ≠ 0)
  | [], h => absurd rfl h
  | [_], _ => by simp [dropZero]
  | f :: g :: fs, _ => by
    rw [dropZero]
    by_cases h : f.1 = 0
    · rw [if_pos h]; exact dropZero_head (g :: fs) (by simp)
    · rw [if_neg h]; exact ⟨by simp, Or.inr ⟨f, g :: fs, rfl, h⟩⟩

theorem field_len (v : Nat) (u : UInt8) (k : Nat) (hk : 0 < k) (h : v < 10 ^ k) : (field (v, u)).length ≤ k + 1 := by
  unfold field
  have := dec_length_le v k hk h
  simp only [List.length_append, List.length_singleton]; omega

theorem flatten_suffix_len {a b : List (Nat × UInt8)} (h : a <:+ b) : ((a.map field).flatten).length ≤ ((b.map field).flatten).length := by
  obtain ⟨t, rfl⟩ := h
  simp only [List.map_append, List.flatten_append, List.length_append]; omega

theorem fields6_len (n : Nat) (h : n < 31449600 * 2147483648) : (((fields6 n).map field).flatten).length ≤ 25 := by
  unfold fields6
  have h1 := field_len (n / 31449600) 0x79 10 (by omega) (by omega)
  have h2 := field_len (n / 604800 % 52) 0x77 2 (by omega) (by omega)
  have h3 := field_len (n / 86400 % 7) 0x64 1 (by omega) (by omega)
  have h4 := field_len (n / 3600 % 24) 0x68 2 (by omega) (by omega)
  have h5 := field_len (n / 60 % 60) 0x6D 2 (by omega) (by omega)
  have h6 := field_len (n % 60) 0x73 2 (by omega) (by omega)
  simp only [List.map_cons, List.map_nil, List.flatten_cons, List.flatten_nil, List.length_append, List.length_nil]
  omega

theorem field_nz (f : Nat × UInt8) (h : f.2 ≠ 0) : (0 : UInt8) ∉ field f := by
  unfold field
  simp only [List.mem_append, List.mem_singleton, not_or]
  exact ⟨fun g => absurd ((dec_spec f.1).2.1 0 g) (by decide), fun g => h g.symm⟩

theorem fields6_units (n : Nat) : ∀ f ∈ fields6 n, ¬ digit f.2 ∧ f.2 ≠ 0 := by
  intro f hf
  unfold fields6 at hf
  simp only [List.mem_cons, List.not_mem_nil, or_false] at hf
  rcases hf with rfl | rfl | rfl | rfl | rfl | rfl <;> exact ⟨by dsimp only; decide, by dsimp only; decide⟩

theorem timeDelta_eq (n : Nat) (h : n < 31449600 * 2147483648) : timeDelta n = some ((dropZero (fields6 n)).map field).flatten := by
  have hl := Nat.le_trans (flatten_suffix_len (dropZero_suffix (fields6 n))) (fields6_len n h)
  have hz : (0 : UInt8) ∉ ((dropZero (fields6 n)).map field).flatten := by
    intro hm
    obtain ⟨l, hl, hm⟩ := List.mem_flatten.1 hm
    obtain ⟨f, hf, rfl⟩ := List.mem_map.1 hl
    exact field_nz f (fields6_units n f ((dropZero_suffix _).subset hf)).2 hm
  unfold timeDelta
  rw [deltaText_eq n h, snprintf_eq (by omega) (by simp; omega), Option.bind_some, List.take_of_length_le (by omega), cstr_over hz]

theorem sum_six (g : Nat × UInt8 → Nat) (a b c d e f : Nat × UInt8) :
    ([a, b, c, d, e, f].map g).sum = g a + (g b + (g c + (g d + (g e + g f)))) := by
  simp only [List.map_cons, List.map_nil, List.sum_cons, List.sum_nil, Nat.add_zero]

theorem unit_eq {u : UInt8} {k : Nat} (h : unitSeconds u = k) (v : Nat) : (fun f : Nat × UInt8 => f.1 * unitSeconds f.2) (v, u) = v * k := by
  subst h; rfl

theorem sum_units (y w d h m s : Nat) :
    ([(y, 0x79), (w, 0x77), (d, 0x64), (h, 0x68), (m, 0x6D), (s, 0x73)].map (fun f : Nat × UInt8 => f.1 * unitSeconds f.2)).sum =
      y * 31449600 + (w * 604800 + (d * 86400 + (h * 3600 + (m * 60 + s * 1)))) := by
  refine (sum_six _ _ _ _ _ _ _).trans ?_
  exact congr (congrArg _ (unit_eq (by decide) y)) (congr (congrArg _ (unit_eq (by decide) w)) (congr (congrArg _ (unit_eq (by decide) d))
    (congr (congrArg _ (unit_eq (by decide) h)) (congr (congrArg _ (unit_eq (by decide) m)) (unit_eq (by decide) s)))))

theorem fields6_sum (n : Nat) : ((fields6 n).map (fun f => f.1 * unitSeconds f.2)).sum = n := by
  unfold fields6
  rw [sum_units]
  have b1 : n / 60 / 60 = n / 3600 := Nat.div_div_eq_div_mul ..
  have b2 : n / 3600 / 24 = n / 86400 := Nat.div_div_eq_div_mul ..
  have b3 : n / 86400 / 7 = n / 604800 := Nat.div_div_eq_div_mul ..
  have b4 : n / 604800 / 52 = n / 31449600 := Nat.div_div_eq_div_mul ..
  have a1 := Nat.div_add_mod n 60
  have a2 := Nat.div_add_mod (n / 60) 60
  have a3 := Nat.div_add_mod (n / 3600) 24
  have a4 := Nat.div_add_mod (n / 86400) 7
  have a5 := Nat.div_add_mod (n / 604800) 52
  rw [b1] at a2
  rw [b2] at a3
  rw [b3] at a4
  rw [b4] at a5
  generalize n / 31449600 = x1 at *
  generalize n / 604800 % 52 = x2 at *
  generalize n / 604800 = y2 at *
  generalize n / 86400 % 7 = x3 at *
  generalize n / 86400 = y3 at *
  generalize n / 3600 % 24 = x4 at *
  generalize n / 3600 = y4 at *
  generalize n / 60 % 60 = x5 at *
  generalize n / 60 = y5 at *
  generalize n % 60 = x6 at *
  omega

/-- C27. The text that is shown for an elapsed time, read back, is this time.  Partial: `n` is not negative (`C27_clock_set_back`) and the
years fit an `int` (`C27_year_overflow`). -/
theorem C27_reads_back_partial (n : Nat) (h : n < 31449600 * 2147483648) : ∃ s, timeDelta n = some s ∧ s.length < 32 ∧ readDelta 0 0 s = n := by
  refine ⟨_, timeDelta_eq n h, ?_, ?_⟩
  · have := flatten_suffix_len (dropZero_suffix (fields6 n))
    have := fields6_len n h
    omega
  · rw [readDelta_fields _ _ (fun f hf => (fields6_units n f ((dropZero_suffix _).subset hf)).1), dropZero_sum]
    exact (Nat.zero_add _).trans (fields6_sum n)

/-- C27. The text is in canonical form: units from the largest one needed down to seconds, none left out, the first not zero (except for
`0s`), each below the next larger unit, written without leading zeros. -/
theorem C27_canonical_partial (n : Nat) (h : n < 31449600 * 2147483648) :
    ∃ fs : List (Nat × UInt8), timeDelta n = some ((fs.map (fun f => dec f.1 ++ [f.2])).flatten) ∧ fs ≠ [] ∧
      fs.map (·.2) <:+ bs "ywdhms" ∧ (fs.length = 1 ∨ ∃ f r, fs = f :: r ∧ f.1 ≠ 0) ∧ ∀ f ∈ fs, inRange f.1 f.2 := by
  refine ⟨dropZero (fields6 n), timeDelta_eq n h, (dropZero_head _ (by simp [fields6])).1, ?_, (dropZero_head _ (by simp [fields6])).2, ?_⟩
  · obtain ⟨t, ht⟩ := dropZero_suffix (fields6 n)
    refine ⟨t.map (·.2), ?_⟩
    rw [← List.map_append, ht]
    have : bs "ywdhms" = [0x79, 0x77, 0x64, 0x68, 0x6D, 0x73] := by decide
    rw [this]
    rfl
  · intro f hf
    have := (dropZero_suffix _).subset hf
    unfold fields6 at this
    simp only [List.mem_cons, List.not_mem_nil, or_false] at this
    unfold inRange
    rcases this with rfl | rfl | rfl | rfl | rfl | rfl
    · simp
    · dsimp only; rw [if_neg (by decide), if_pos rfl]; omega
    · dsimp only; rw [if_neg (by decide), if_neg (by decide), if_pos rfl]; omega
    · dsimp only; rw [if_neg (by decide), if_neg (by decide), if_neg (by decide), if_pos rfl]; omega
    · dsimp only; rw [if_neg (by decide), if_neg (by decide), if_neg (by decide), if_neg (by decide)]; omega
    · dsimp only; rw [if_neg (by decide), if_neg (by decide), if_neg (by decide), if_neg (by decide)]; omega

/-- If the clock was set back, the text is wrong (the assert against this is not compiled in): 65 seconds before the start is shown as
`-5s`. -/
theorem C27_clock_set_back : timeDelta (-65) = some (bs "-5s") := by decide +kernel

/-- The bound in `C27_reads_back_partial` is the range of `int` for the years. -/
theorem C27_year_overflow : timeDelta (31449600 * 2147483648) = some (bs "0s") := by decide +kernel

/-- A year is 52 weeks. -/
theorem C27_year_of_364_days : timeDelta (365 * 86400) = some (bs "1y0w1d0h0m0s") := by decide +kernel

example : timeDelta 93784 = some (bs "1d2h3m4s") ∧ readDelta 0 0 (bs "1d2h3m4s") = 93784 ∧ 93784 < 31449600 * 2147483648 := by decide +kernel

end Conman
