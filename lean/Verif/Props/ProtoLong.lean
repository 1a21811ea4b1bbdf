import Verif.Props.Proto

/-
C56: error texts that are too long.
-/
namespace Conman
open Spec

/-- C56. Of an error text of 1024 bytes or more there is no response at all. -/
theorem C56_overlong (size errnum : Nat) (t : List UInt8) (hl : 1024 ≤ t.length) : rspErr size errnum (some t) = some none := by
  unfold rspErr
  dsimp only [Option.getD_some]
  rw [if_pos (show t.length ≥ maxLine from hl)]

/-- C56. Whatever error response is sent is the whole line with the whole text, never a part of it; its text has fewer than 1024 bytes and the line is shorter than the buffer. -/
theorem C56_whole (size errnum : Nat) (t m : List UInt8) (h0 : 0 < size) (hn : (0 : UInt8) ∉ lexEncode t) (hm : rspErr size errnum (some t) = some (some m)) :
    m = bs "ERROR CODE=" ++ dec errnum ++ bs " MESSAGE='" ++ lexEncode t ++ bs "'\n" ∧ t.length < 1024 ∧ m.length < size := by
  have e : protoStr tokError ++ bs " " ++ protoStr tokCode ++ bs "=" ++ dec errnum ++ bs " " ++ protoStr tokMessage ++ bs "='" ++ lexEncode t ++ bs "'\n" =
      bs "ERROR CODE=" ++ dec errnum ++ bs " MESSAGE='" ++ lexEncode t ++ bs "'\n" := by
    have e1 : protoStr tokError ++ bs " " ++ protoStr tokCode ++ bs "=" = bs "ERROR CODE=" := by decide
    have e2 : bs " " ++ (protoStr tokMessage ++ bs "='") = bs " MESSAGE='" := by decide
    rw [e1, List.append_assoc (_ ++ _) (bs " "), List.append_assoc (_ ++ _) (bs " " ++ _), List.append_assoc (bs " "), e2]
  have hl : t.length < 1024 := by
    refine Nat.lt_of_not_le fun h => ?_
    rw [C56_overlong size errnum t h] at hm
    simp at hm
  unfold rspErr at hm
  dsimp only [Option.getD_some] at hm
  rw [e] at hm
  split at hm
  · simp at hm
  · have hz2 : (0 : UInt8) ∉ bs "ERROR CODE=" ++ dec errnum ++ bs " MESSAGE='" ++ lexEncode t ++ bs "'\n" := by
      simp only [List.mem_append, not_or]
      exact ⟨⟨⟨⟨by decide, fun g => absurd ((dec_spec errnum).2.1 _ g) (by decide)⟩, by decide⟩, hn⟩, by decide⟩
    generalize bs "ERROR CODE=" ++ dec errnum ++ bs " MESSAGE='" ++ lexEncode t ++ bs "'\n" = x at hm hz2 ⊢
    rw [snprintf_eq h0 (by simp; omega), Option.bind_some] at hm
    dsimp only at hm
    split at hm
    · simp at hm
    · rw [List.take_of_length_le (by omega), cstr_over hz2, Option.map_some] at hm
      have hx : x = m := by simpa using hm
      subst hx
      exact ⟨rfl, hl, by omega⟩

/-- A text of 1023 bytes is sent, one of 1024 is not. -/
example : (∃ m, rspErr 131072 4 (some (List.replicate 1023 0x61)) = some (some m)) ∧ rspErr 131072 4 (some (List.replicate 1024 0x61)) = some none := by
  refine ⟨?_, C56_overlong 131072 4 _ (Nat.le_of_eq List.length_replicate.symm)⟩
  have hp : Plain (List.replicate 1023 0x61) := ⟨fun c hc => by rw [(List.mem_replicate.1 hc).2]; decide, Nat.le_of_eq List.length_replicate⟩
  have h := rspErr_eq 131072 4 (some (List.replicate 1023 0x61)) (by decide) hp
  rw [h, Option.getD_some, if_pos (by decide +kernel)]
  exact ⟨_, rfl⟩

/-- An error that is sent: the hypotheses of `C56_whole`. -/
example : (0 : UInt8) ∉ lexEncode (bs "no 'x'") ∧ ∃ m, rspErr 100 4 (some (bs "no 'x'")) = some (some m) := by
  refine ⟨by decide +kernel, ?_⟩
  exact Option.isSome_iff_exists.1 (show ((rspErr 100 4 (some (bs "no 'x'"))).getD none).isSome = true by decide +kernel) |>.imp fun m h => by
    cases hr : rspErr 100 4 (some (bs "no 'x'")) with
    | none => rw [hr] at h; simp at h
    | some r => rw [hr] at h; simpa using h

end Conman
