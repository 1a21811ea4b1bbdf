import Verif.Spec.Lex

namespace Conman.Spec

/-- Strings that a message can carry: 7-bit, without NUL or line breaks, and not longer than the lexer's limit. -/
def Plain (s : List UInt8) : Prop := (∀ c ∈ s, 0 < c ∧ c < 128 ∧ ¬ isNl c) ∧ s.length ≤ 1023

instance (s : List UInt8) : Decidable (Plain s) := by unfold Plain; infer_instance

/-- Names as they arrive: 7-bit and at most 1023 bytes. -/
def NameOk (c : List UInt8) : Prop := c.length ≤ 1023 ∧ ∀ x ∈ c, 0 < x ∧ x < 128

/-- The number written by a sequence of digits. -/
def number (d : List UInt8) : Nat := d.foldl (fun a c => 10 * a + (c.toNat - 0x30)) 0

/-- Somewhere in the text stands a sequence of digits that is too large for an `int`. -/
def HugeNumber (s : List UInt8) : Prop := ∃ a d b, s = a ++ d ++ b ∧ (∀ c ∈ d, digit c) ∧ 2147483647 < number d

end Conman.Spec
