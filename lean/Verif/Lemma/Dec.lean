import Verif.Model.Dec
import Verif.Spec.Lex

/-
Decimal numbers.
-/
namespace Conman
open Spec

theorem digit_ofNat {k : Nat} (h : k < 10) : digit (UInt8.ofNat (0x30 + k)) ∧ (UInt8.ofNat (0x30 + k)).toNat = 0x30 + k := by
  have : ∀ k : Fin 10, digit (UInt8.ofNat (0x30 + k.1)) ∧ (UInt8.ofNat (0x30 + k.1)).toNat = 0x30 + k.1 := by decide
  exact this ⟨k, h⟩

theorem digitsVal_snoc (s : List UInt8) (c : UInt8) : digitsVal (s ++ [c]) = 10 * digitsVal s + (c.toNat - 0x30) := by
  unfold digitsVal
  rw [List.foldl_append]
  rfl

theorem decDigits_spec : ∀ (f n : Nat), n < f → decDigits f n ≠ [] ∧ (∀ c ∈ decDigits f n, digit c) ∧ digitsVal (decDigits f n) = n ∧
    ((decDigits f n).head? = some 0x30 → n = 0) := by
  intro f
  induction f with
  | zero => intro n h; omega
  | succ f ih =>
    intro n h
    rw [decDigits]
    by_cases g : n < 10
    · rw [if_pos g]
      obtain ⟨h1, h2⟩ := digit_ofNat g
      refine ⟨by simp, by simpa using h1, ?_, ?_⟩
      · unfold digitsVal
        simp only [List.foldl_cons, List.foldl_nil, h2]; omega
      · intro hh
        simp only [List.head?_cons, Option.some.injEq] at hh
        rw [hh] at h2
        have : (0x30 : UInt8).toNat = 48 := rfl
        omega
    · rw [if_neg g]
      obtain ⟨h1, h2⟩ := digit_ofNat (k := n % 10) (by omega)
      obtain ⟨i1, i2, i3, i4⟩ := ih (n / 10) (by omega)
      refine ⟨by simp, ?_, ?_, ?_⟩
      · intro c hc
        rcases List.mem_append.1 hc with hc | hc
        · exact i2 c hc
        · rw [List.mem_singleton] at hc; subst hc; exact h1
      · rw [digitsVal_snoc, i3, h2]; omega
      · intro hh
        rw [List.head?_append] at hh
        cases hd : (decDigits f (n / 10)).head? with
        | none => rw [List.head?_eq_none_iff] at hd; exact absurd hd i1
        | some x =>
          rw [hd] at hh
          have := i4 (by rw [hd]; simpa using hh)
          omega

theorem dec_spec (n : Nat) : dec n ≠ [] ∧ (∀ c ∈ dec n, digit c) ∧ digitsVal (dec n) = n ∧ ((dec n).head? = some 0x30 → n = 0) :=
  decDigits_spec (n + 1) n (by omega)

theorem digit_isDigit {c : UInt8} (h : digit c) : isDigit c = true := by
  unfold digit at h; unfold isDigit
  simp [h.1, h.2]

theorem isDigit_digit {c : UInt8} (h : isDigit c = true) : digit c := by
  unfold isDigit at h; unfold digit
  simpa using h

theorem digit_notSpace {c : UInt8} (h : digit c) : isSpace c = false := by
  have : ∀ n : Fin 256, digit (UInt8.ofNat n.1) → isSpace (UInt8.ofNat n.1) = false := by decide +kernel
  have := this ⟨c.toNat, c.toNat_lt⟩
  simp only [UInt8.ofNat_toNat] at this
  exact this h

theorem takeWhile_digits {s : List UInt8} (h : ∀ c ∈ s, digit c) : s.takeWhile isDigit = s := by
  induction s with
  | nil => rfl
  | cons a s ih =>
    rw [List.takeWhile_cons, if_pos (digit_isDigit (h a (by simp))), ih (fun c hc => h c (by simp [hc]))]

theorem atoi_digits {s : List UInt8} (h : ∀ c ∈ s, digit c) (hv : digitsVal s ≤ 2147483647) : atoi s = some (digitsVal s : Int) := by
  have h1 : s.dropWhile isSpace = s := by
    cases s with
    | nil => rfl
    | cons a s => rw [List.dropWhile_cons, digit_notSpace (h a (by simp))]; rfl
  have h2 : s.head? ≠ some 0x2D ∧ s.head? ≠ some 0x2B := by
    cases s with
    | nil => simp
    | cons a s =>
      have := h a (by simp)
      constructor <;> (intro g; simp only [List.head?_cons, Option.some.injEq] at g; subst g; revert this; decide)
  unfold atoi
  simp only [h1, h2.1, h2.2, decide_false, Bool.or_false, Bool.false_eq_true, if_false, takeWhile_digits h]
  rw [if_pos (by omega)]

theorem atoi_dec (n : Nat) (h : n ≤ 2147483647) : atoi (dec n) = some (n : Int) := by
  obtain ⟨_, h2, h3, _⟩ := dec_spec n
  have := atoi_digits h2 (by rw [h3]; exact h)
  rw [h3] at this
  exact this

theorem dec_length_le (n k : Nat) (hk : 0 < k) (h : n < 10 ^ k) : (dec n).length ≤ k := by
  have : ∀ (k f n : Nat), n < 10 ^ (k + 1) → (decDigits f n).length ≤ k + 1 := by
    intro k
    induction k with
    | zero =>
      intro f n hn
      cases f with
      | zero => simp [decDigits]
      | succ f => rw [decDigits, if_pos (by simpa using hn)]; simp
    | succ k ih =>
      intro f n hn
      cases f with
      | zero => simp [decDigits]
      | succ f =>
        rw [decDigits]
        split
        · simp
        · have := ih f (n / 10) (by rw [Nat.pow_succ] at hn; omega)
          simp only [List.length_append, List.length_singleton]; omega
  have := this (k - 1) (n + 1) n (by rw [Nat.sub_add_cancel hk]; exact h)
  unfold dec
  omega

end Conman
