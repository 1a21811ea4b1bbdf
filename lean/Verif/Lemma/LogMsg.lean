import Verif.Model.LogMsg
import Verif.Lemma.CStr

/-
Lemmas about the messages of the daemon.
-/
namespace Conman
open Spec

theorem logPad_eq (p : Int) : logPad (logPrefix p) = logHead p := by
  unfold logPrefix
  split <;> first | decide | skip
  rename_i h0 h1 h2 h3 h4 h5 h6 h7
  unfold logHead
  split <;> first | contradiction | decide

theorem logHead_facts (p : Int) : (logHead p).length = 11 ∧ (0 : UInt8) ∉ logHead p := by
  unfold logHead
  split <;> decide

theorem take_app_take {n : Nat} (a s : List UInt8) : (a.take n ++ s).take n = (a ++ s).take n := by
  by_cases h : a.length ≤ n
  · rw [List.take_of_length_le h]
  · rw [List.take_append_of_le_length (by simp; omega), List.take_append_of_le_length (by omega), List.take_take, Nat.min_self]

/-- The array holds the string `a` of at most 1022 bytes. -/
def LogHas (b : LogBuf) (a : List UInt8) : Prop :=
  b.1.length = 1024 ∧ (0 : UInt8) ∉ a ∧ a.length ≤ 1022 ∧ b.2.1 = a.length ∧ b.2.2 = 1023 - a.length ∧ ∃ r, b.1 = a ++ 0 :: r

theorem LogHas.put {b : LogBuf} {a s : List UInt8} (h : LogHas b a) (hs : (0 : UInt8) ∉ s) : ∃ b', logPut b s = some b' ∧ LogHas b' ((a ++ s).take 1022) := by
  obtain ⟨buf, p, len⟩ := b
  obtain ⟨h1, h2, h3, h4, h5, r, h6⟩ := h
  dsimp only at h1 h4 h5 h6
  subst h4
  unfold logPut
  dsimp only
  rw [if_neg (by omega), snprintf_eq (by omega) (by omega), Option.map_some]
  refine ⟨_, rfl, ?_⟩
  have hl : (s.take (len - 1)).length = min (len - 1) s.length := by simp
  have e : (a ++ s).take 1022 = a ++ s.take (len - 1) := by
    rw [List.take_append, List.take_of_length_le h3]
    congr 2; omega
  have hn : (if len ≤ s.length then len - 1 else s.length) = (s.take (len - 1)).length := by
    rw [hl]; split <;> omega
  refine ⟨?_, ?_, ?_, ?_, ?_, ?_⟩
  · dsimp only
    rw [over_length (by simp; omega)]; exact h1
  · intro hm
    rcases List.mem_append.1 (List.mem_of_mem_take hm) with hm | hm
    · exact h2 hm
    · exact hs hm
  · simp; omega
  · dsimp only
    rw [hn, e, List.length_append]
  · dsimp only
    rw [hn, e, List.length_append]; omega
  · dsimp only
    rw [e]
    refine ⟨buf.drop (a.length + (s.take (len - 1) ++ [0]).length), ?_⟩
    have ht : buf.take a.length = a := by rw [h6, List.take_left' rfl]
    unfold over
    rw [ht]
    simp only [List.append_assoc, List.singleton_append]

theorem LogHas.nl {b : LogBuf} {a : List UInt8} (h : LogHas b a) : ∃ b' r, logNl b = some b' ∧ b'.1 = a ++ 0x0A :: 0 :: r := by
  obtain ⟨buf, p, len⟩ := b
  obtain ⟨h1, h2, h3, h4, h5, r, h6⟩ := h
  dsimp only at h1 h4 h5 h6
  subst h4
  unfold logNl
  dsimp only
  have e : buf.drop a.length = [] ++ 0 :: r := by rw [h6, List.drop_left' rfl]; rfl
  rw [e, cstr_app (by simp), Option.bind_some]
  have hb : bs "\n" ++ [0] = [0x0A, 0] := by decide
  rw [hb, pokes_eq _ (by simp; omega), Option.map_some]
  refine ⟨_, buf.drop (a.length + 0 + 2), rfl, ?_⟩
  dsimp only
  unfold over
  simp only [List.length_nil, Nat.add_zero, List.length_cons]
  have : buf.take a.length = a := by rw [h6, List.take_left' rfl]
  rw [this]; simp

theorem logFill_eq {buf : List UInt8} {c : LogCall} (hb : buf.length = 1024) (hc : c.ok) :
    ∃ r, logFill buf c = some (c.line ++ 0 :: r, c.stamp.length, c.stamp.length + 11) ∧ (0 : UInt8) ∉ c.line := by
  obtain ⟨c1, c2, c3, c4, c5⟩ := hc
  obtain ⟨hh1, hh2⟩ := logHead_facts c.prio
  have s0 : ∃ b0, logStamp buf c.stamp (buf.length - 1) = some b0 ∧ LogHas b0 c.stamp := by
    unfold logStamp
    rw [if_pos ⟨by omega, c1⟩, pokes_eq _ (by simp; omega), Option.map_some]
    refine ⟨_, rfl, ?_, c3, by omega, rfl, by dsimp only; omega, ?_⟩
    · dsimp only; rw [over_length (by simp; omega)]; exact hb
    · refine ⟨buf.drop (0 + (c.stamp ++ [0]).length), ?_⟩
      unfold over; simp
  obtain ⟨b0, e0, l0⟩ := s0
  obtain ⟨b1, e1, l1⟩ := l0.put hh2
  obtain ⟨b2, e2, l2⟩ := l1.put c4
  rw [take_app_take] at l2
  have p1 : b1.2.1 = c.stamp.length + 11 := by
    rw [l1.2.2.2.1, List.length_take, List.length_append, hh1]; omega
  have z2 : (0 : UInt8) ∉ (c.stamp ++ logHead c.prio ++ c.text).take 1022 := l2.2.1
  unfold logFill
  rw [e0, Option.bind_some, logPad_eq, e1, Option.bind_some, e2, Option.bind_some, p1, l0.2.2.2.1]
  cases hnl : c.nl with
  | true =>
    rw [if_pos rfl, Option.map_some]
    obtain ⟨r, hr⟩ := l2.2.2.2.2.2
    have el : c.line = (c.stamp ++ logHead c.prio ++ c.text).take 1022 := by
      unfold LogCall.line LogCall.full; simp [hnl]
    exact ⟨r, by rw [hr, el], by rw [el]; exact z2⟩
  | false =>
    rw [if_neg (by decide)]
    have fin : ∀ b3, LogHas b3 (c.full.take 1022) → ∃ r, (logNl b3).map (fun b3 => (b3.1, c.stamp.length, c.stamp.length + 11)) = some (c.line ++ 0 :: r, c.stamp.length, c.stamp.length + 11) ∧
        (0 : UInt8) ∉ c.line := by
      intro b3 l3
      obtain ⟨b', r, e, hr⟩ := l3.nl
      have el : c.line = c.full.take 1022 ++ [0x0A] := by unfold LogCall.line; simp [hnl]
      refine ⟨r, by rw [e, Option.map_some, hr, el]; simp, ?_⟩
      rw [el, List.mem_append, not_or]
      exact ⟨l3.2.1, by decide⟩
    cases he : c.err with
    | none =>
      rw [Option.bind_some]
      exact fin b2 (by unfold LogCall.full; simpa [hnl, he, LogCall.errText] using l2)
    | some e =>
      obtain ⟨b3, e3, l3⟩ := l2.put (s := bs ": " ++ e) (by
        rw [List.mem_append, not_or]; exact ⟨by decide, c5 e (by rw [he]; rfl)⟩)
      rw [take_app_take] at l3
      dsimp only
      rw [e3, Option.bind_some]
      exact fin b3 (by unfold LogCall.full; simpa [hnl, he, LogCall.errText] using l3)

end Conman
