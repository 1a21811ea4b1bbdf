import Verif.Model.EscLog
import Verif.Lemma.LogMsg

/-
Messages with a NUL byte in their text.
-/
namespace Conman
open Spec

/-- The array holds `a` of at most 1022 bytes, of which any may be NUL. -/
def LogAt (b : LogBuf) (a : List UInt8) : Prop :=
  b.1.length = 1024 ∧ a.length ≤ 1022 ∧ b.2.1 = a.length ∧ b.2.2 = 1023 - a.length ∧ ∃ r, b.1 = a ++ 0 :: r

theorem LogAt.put {b : LogBuf} {a : List UInt8} (s : List UInt8) (h : LogAt b a) : ∃ b', logPut b s = some b' ∧ LogAt b' ((a ++ s).take 1022) := by
  obtain ⟨buf, p, len⟩ := b
  obtain ⟨h1, h3, h4, h5, r, h6⟩ := h
  dsimp only at h1 h4 h5 h6
  subst h4
  unfold logPut
  dsimp only
  rw [if_neg (by omega), snprintf_eq (by omega) (by omega), Option.map_some]
  refine ⟨_, rfl, ?_⟩
  have hl : (s.take (len - 1)).length = min (len - 1) s.length := by simp
  have e : (a ++ s).take 1022 = a ++ s.take (len - 1) := by
    rw [List.take_append, List.take_of_length_le h3]
    congr 2; omega
  have hn : (if len ≤ s.length then len - 1 else s.length) = (s.take (len - 1)).length := by
    rw [hl]; split <;> omega
  refine ⟨?_, ?_, ?_, ?_, ?_⟩
  · dsimp only
    rw [over_length (by simp; omega)]; exact h1
  · simp; omega
  · dsimp only
    rw [hn, e, List.length_append]
  · dsimp only
    rw [hn, e, List.length_append]; omega
  · dsimp only
    rw [e]
    refine ⟨buf.drop (a.length + (s.take (len - 1) ++ [0]).length), ?_⟩
    have ht : buf.take a.length = a := by rw [h6, List.take_left' rfl]
    unfold over
    rw [ht]
    simp only [List.append_assoc, List.singleton_append]

theorem LogAt.nl {b : LogBuf} {a : List UInt8} (h : LogAt b a) : ∃ b' r, logNl b = some b' ∧ b'.1 = a ++ 0x0A :: 0 :: r := by
  obtain ⟨buf, p, len⟩ := b
  obtain ⟨h1, h3, h4, h5, r, h6⟩ := h
  dsimp only at h1 h4 h5 h6
  subst h4
  unfold logNl
  dsimp only
  have e : buf.drop a.length = [] ++ 0 :: r := by rw [h6, List.drop_left' rfl]; rfl
  rw [e, cstr_app (by simp), Option.bind_some]
  have hb : bs "\n" ++ [0] = [0x0A, 0] := by decide
  rw [hb, pokes_eq _ (by simp; omega), Option.map_some]
  refine ⟨_, buf.drop (a.length + 0 + 2), rfl, ?_⟩
  dsimp only
  unfold over
  simp only [List.length_nil, Nat.add_zero, List.length_cons]
  have : buf.take a.length = a := by rw [h6, List.take_left' rfl]
  rw [this]; simp

/-- The array has the line also if the text has NUL bytes. -/
theorem logFill_any {buf : List UInt8} {c : LogCall} (hb : buf.length = 1024) (c1 : c.stamp ≠ []) (c2 : c.stamp.length ≤ 1010) (he : c.err = none) (hnl : c.nl = false) :
    ∃ r, logFill buf c = some (c.line ++ 0 :: r, c.stamp.length, c.stamp.length + 11) := by
  obtain ⟨hh1, hh2⟩ := logHead_facts c.prio
  have s0 : ∃ b0, logStamp buf c.stamp (buf.length - 1) = some b0 ∧ LogAt b0 c.stamp := by
    unfold logStamp
    rw [if_pos ⟨by omega, c1⟩, pokes_eq _ (by simp; omega), Option.map_some]
    refine ⟨_, rfl, ?_, by omega, rfl, by dsimp only; omega, ?_⟩
    · dsimp only; rw [over_length (by simp; omega)]; exact hb
    · refine ⟨buf.drop (0 + (c.stamp ++ [0]).length), ?_⟩
      unfold over; simp
  obtain ⟨b0, e0, l0⟩ := s0
  obtain ⟨b1, e1, l1⟩ := l0.put (logHead c.prio)
  obtain ⟨b2, e2, l2⟩ := l1.put c.text
  rw [take_app_take] at l2
  have p1 : b1.2.1 = c.stamp.length + 11 := by
    rw [l1.2.2.1, List.length_take, List.length_append, hh1]; omega
  unfold logFill
  rw [e0, Option.bind_some, logPad_eq, e1, Option.bind_some, e2, Option.bind_some, p1, l0.2.2.1, hnl, he, if_neg (by decide)]
  dsimp only
  rw [Option.bind_some]
  obtain ⟨b', r, e, hr⟩ := l2.nl
  have el : c.line = (c.stamp ++ logHead c.prio ++ c.text).take 1022 ++ [0x0A] := by
    unfold LogCall.line LogCall.full; simp [hnl, he, LogCall.errText]
  exact ⟨r, by rw [e, Option.map_some, hr, el]; simp⟩

/-- A text with a NUL byte is cut there, and the newline is lost with the rest. -/
theorem logAux_nul {buf a b : List UInt8} {c : LogCall} (level : Int) (stamps sys : Bool) (hb : buf.length = 1024) (c1 : c.stamp ≠ []) (hz : (0 : UInt8) ∉ c.stamp)
    (he : c.err = none) (hnl : c.nl = false) (ht : c.text = a ++ 0 :: b) (ha : (0 : UInt8) ∉ a) (hl : c.stamp.length + 11 + a.length ≤ 1021) (hp : c.prio ≤ level) :
    ∃ o, logAux { file := some (level, stamps), syslog := sys } buf c false = some ({ file := some (level, stamps), syslog := sys }, o) ∧
      o.file = (if stamps then c.stamp else []) ++ logHead c.prio ++ a ∧ o.syslog = (if sys then [a] else []) := by
  obtain ⟨hh1, hh2⟩ := logHead_facts c.prio
  obtain ⟨r, e⟩ := logFill_any hb c1 (by omega) he hnl
  obtain ⟨t, ht2⟩ : ∃ t, c.line = c.stamp ++ (logHead c.prio ++ (a ++ 0 :: t)) := by
    unfold LogCall.line LogCall.full
    rw [ht, hnl]
    have : c.stamp ++ logHead c.prio ++ (a ++ 0 :: b) ++ (if false = true then [] else c.errText) =
        (c.stamp ++ (logHead c.prio ++ (a ++ [0]))) ++ (b ++ (if false = true then [] else c.errText)) := by
      simp only [List.append_assoc, List.cons_append, List.nil_append]
    rw [this, List.take_append, List.take_of_length_le (by simp only [List.length_append, List.length_singleton, hh1]; omega)]
    exact ⟨_, by simp only [List.append_assoc, List.cons_append, List.nil_append]; rfl⟩
  have q0 : cstr (c.line ++ 0 :: r) = some (c.stamp ++ logHead c.prio ++ a) := by
    have : c.line ++ 0 :: r = (c.stamp ++ logHead c.prio ++ a) ++ 0 :: (t ++ 0 :: r) := by rw [ht2]; simp only [List.append_assoc, List.cons_append]
    rw [this]
    exact cstr_app (by simp only [List.mem_append, not_or]; exact ⟨⟨hz, hh2⟩, ha⟩)
  have q1 : cstr ((c.line ++ 0 :: r).drop c.stamp.length) = some (logHead c.prio ++ a) := by
    have : c.line ++ 0 :: r = c.stamp ++ ((logHead c.prio ++ a) ++ 0 :: (t ++ 0 :: r)) := by rw [ht2]; simp only [List.append_assoc, List.cons_append]
    rw [this, List.drop_left' rfl]
    exact cstr_app (by simp only [List.mem_append, not_or]; exact ⟨hh2, ha⟩)
  have q2 : cstr ((c.line ++ 0 :: r).drop (c.stamp.length + 11)) = some a := by
    have : c.line ++ 0 :: r = (c.stamp ++ logHead c.prio) ++ (a ++ 0 :: (t ++ 0 :: r)) := by rw [ht2]; simp only [List.append_assoc, List.cons_append]
    rw [this, List.drop_left' (by rw [List.length_append, hh1])]
    exact cstr_app ha
  unfold logAux
  rw [e, Option.bind_some]
  dsimp only
  rw [q0, Option.bind_some, q1, Option.bind_some, q2, Option.bind_some]
  rw [if_pos hp, if_neg (by decide)]
  refine ⟨_, rfl, ?_, rfl⟩
  dsimp only
  cases stamps <;> simp

end Conman
