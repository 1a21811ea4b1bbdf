import Verif.Lemma.Log
import Verif.Model.Basic

/-
C38, C39, C40: processing of console data for the log.
`clk` gives the timestamp texts in the order they are taken; the hypothesis on
their length is the format "YYYY-MM-DD HH:MM:SS " (years up to 9999).
-/
namespace Conman
open Spec

/-- C40. Whatever console data is processed, in whatever line state and with
whatever options, no store leaves the scratch buffer (the model returns a
result), and no block handed to the object buffer exceeds 16383 bytes. -/
theorem C40_log_scratch_bounds (o : LogOpts) (clk : Nat → List UInt8)
    (hclk : ∀ k, (clk k).length = 20) (st : LineState) (k : Nat) (src : List UInt8)
    (hsrc : src.length ≤ 16383) :
    ∃ w, writeLogData o clk st k src = some w ∧ ∀ b ∈ w.out, b.length ≤ 16383 := by
  by_cases hp : o.sanitize = true ∨ o.timestamp = true
  · obtain ⟨w, h, -, -, -, hb⟩ := writeLogData_eq o clk hclk hp st k src
    rw [logBufCap_eq] at hb
    exact ⟨w, h, hb⟩
  · simp only [not_or, Bool.not_eq_true] at hp
    exact ⟨_, by unfold writeLogData; rw [if_pos hp], by simpa using hsrc⟩

/-- Non-vacuity: a stamp text of 20 bytes. -/
example : (bs "2026-01-01 00:00:00 ").length = 20 := by decide

/-- C39. Whatever the console sends, in whatever split into reads, a log with
processing enabled that was just opened (or just got an informational message)
contains: the text and line ends of the stream, each line starting with exactly
one timestamp if enabled, each line end as CR LF, text bytes as they are or
sanitised. (A stream consisting only of CRs has so far produced just the
timestamp of its first line.) -/
theorem C39_log_layout (o : LogOpts) (clk : Nat → List UInt8) (hclk : ∀ k, (clk k).length = 20)
    (hp : o.sanitize = true ∨ o.timestamp = true) (k : Nat) (chunks : List (List UInt8)) :
    ∃ st k', logChunks o clk .init k chunks = some (st, k',
      layout (if o.sanitize then sanByte else fun b => [b]) o.timestamp clk true k
        (normLines chunks.flatten) ++
      if chunks.flatten ≠ [] ∧ normLines chunks.flatten = [] ∧ o.timestamp = true
        then clk k else []) := by
  refine ⟨(logRef o clk .init k chunks.flatten).1, (logRef o clk .init k chunks.flatten).2.1, ?_⟩
  rw [logChunks_eq o clk hclk hp]
  have h := (logRef_layout o clk chunks.flatten k).2.1
  rw [logText_eq] at h
  have e : (if chunks.flatten ≠ [] ∧ normLines chunks.flatten = [] then
      (if o.timestamp then clk k else []) else []) =
    if chunks.flatten ≠ [] ∧ normLines chunks.flatten = [] ∧ o.timestamp = true
        then clk k else [] := by
    by_cases h1 : chunks.flatten ≠ [] <;> by_cases h2 : normLines chunks.flatten = [] <;>
      by_cases h3 : o.timestamp = true <;> simp [h1, h2, h3]
  rw [e] at h
  rw [← h]

/-- Non-vacuity: `a CR LF LF CR b CR c` has lines "a", "", "b", "c"; the first
CR LF and the LF CR pair count once each. -/
example : normLines [0x61, 0x0D, 0x0A, 0x0A, 0x0D, 0x62, 0x0D, 0x63] =
    [some 0x61, none, none, some 0x62, none, some 0x63] := by
  simp [normLines, isEol, isRun, List.takeWhile, List.dropWhile, List.replicate]

/-- C39. The result does not depend on the split into reads. -/
theorem C39_split_independent (o : LogOpts) (clk : Nat → List UInt8)
    (hclk : ∀ k, (clk k).length = 20) (st : LineState) (k : Nat) (chunks : List (List UInt8))
    (hp : o.sanitize = true ∨ o.timestamp = true) :
    logChunks o clk st k chunks = logChunks o clk st k [chunks.flatten] := by
  simp [logChunks_eq o clk hclk hp]

/-- C39. In a processed log CR and LF occur only as CR LF pairs. -/
theorem C39_line_ends (o : LogOpts) (clk : Nat → List UInt8) (hclk : ∀ k, (clk k).length = 20)
    (hclk2 : ∀ k, ∀ b ∈ clk k, b ≠ 0x0D ∧ b ≠ 0x0A)
    (hp : o.sanitize = true ∨ o.timestamp = true) (k : Nat) (chunks : List (List UInt8))
    (st : LineState) (k' : Nat) (out : List UInt8)
    (h : logChunks o clk .init k chunks = some (st, k', out)) :
    crlfOk out = true := by
  obtain ⟨st2, k2, h2⟩ := C39_log_layout o clk hclk hp k chunks
  rw [h2] at h
  simp only [Option.some.injEq, Prod.mk.injEq] at h
  rw [← h.2.2, crlfOk_append]
  · split
    · exact crlfOk_plain _ (hclk2 k)
    · rfl
  · apply layout_crlf _ _ _ hclk2
    intro c hc b hb
    have hm := mem_normLines _ c hc
    by_cases hs : o.sanitize = true
    · rw [if_pos hs] at hb
      have := sanByte_print c b hb
      constructor <;> rintro rfl <;> simp [isPrint] at this
    · rw [if_neg hs] at hb
      simp only [List.mem_singleton] at hb; subst hb; exact ⟨hm.1, hm.2.1⟩

/-- C39. Text content is preserved: for a NUL-free stream and a log without
timestamps, dropping the line ends leaves exactly the rendering of each text
byte of the stream, in order. -/
theorem C39_text_preserved (clk : Nat → List UInt8) (hclk : ∀ k, (clk k).length = 20)
    (k : Nat) (chunks : List (List UInt8)) (hnul : (0 : UInt8) ∉ chunks.flatten)
    (st : LineState) (k' : Nat) (out : List UInt8)
    (h : logChunks ⟨true, false⟩ clk .init k chunks = some (st, k', out)) :
    out.filter (fun b => !isEol b) = (chunks.flatten.filter (fun b => !isEol b)).flatMap sanByte := by
  obtain ⟨st2, k2, h2⟩ := C39_log_layout ⟨true, false⟩ clk hclk (by simp) k chunks
  rw [h2] at h
  simp only [Option.some.injEq, Prod.mk.injEq] at h
  rw [← h.2.2]
  simp only [if_true, Bool.false_eq_true, and_false, if_false, List.append_nil]
  rw [layout_text_filter, normLines_text_nulfree _ hnul]
  intro c _ b hb
  have := sanByte_print c b hb
  simp only [isEol, Bool.or_eq_false_iff, beq_eq_false_iff_ne]
  constructor <;> rintro rfl <;> simp [isPrint] at this

/-- C38. A sanitised log contains only printable ASCII and CR, LF. -/
theorem C38_sanitized_alphabet (ts : Bool) (clk : Nat → List UInt8)
    (hclk : ∀ k, (clk k).length = 20) (hpr : ∀ k, ∀ b ∈ clk k, isPrint b = true)
    (st : LineState) (k : Nat) (chunks : List (List UInt8)) (st' : LineState) (k' : Nat)
    (out : List UInt8) (h : logChunks ⟨true, ts⟩ clk st k chunks = some (st', k', out)) :
    ∀ b ∈ out, isPrint b = true ∨ b = 0x0D ∨ b = 0x0A := by
  rw [logChunks_eq _ clk hclk (by simp)] at h
  simp only [Option.some.injEq] at h
  have := logRef_alphabet ⟨true, ts⟩ rfl clk hpr st k chunks.flatten
  rw [h] at this
  exact this

example : ∀ b ∈ bs "2026-01-01 00:00:00 ", isPrint b = true := by decide

/-- C38 (partial). The text of the stream can be read back from the sanitised
log (timestamps off) if it contains no plain `^`, `~` or backquote.
Missing: streams with these bytes, for which it is false
(`C38_rendering_ambiguous`). -/
theorem C38_recover_partial (clk : Nat → List UInt8) (hclk : ∀ k, (clk k).length = 20)
    (k : Nat) (chunks : List (List UInt8))
    (hm : ∀ c ∈ chunks.flatten, c ≠ 0x5E ∧ c ≠ 0x7E ∧ c ≠ 0x60)
    (st : LineState) (k' : Nat) (out : List UInt8)
    (h : logChunks ⟨true, false⟩ clk .init k chunks = some (st, k', out)) :
    unsanitize (out.filter (fun b => !isEol b)) = (normLines chunks.flatten).filterMap id := by
  obtain ⟨st2, k2, h2⟩ := C39_log_layout ⟨true, false⟩ clk hclk (by simp) k chunks
  rw [h2] at h
  simp only [Option.some.injEq, Prod.mk.injEq] at h
  rw [← h.2.2]
  simp only [if_true, Bool.false_eq_true, and_false, if_false, List.append_nil]
  rw [layout_text_filter, unsan_flatMap]
  · intro c hc
    simp only [List.mem_filterMap, id_eq, exists_eq_right] at hc
    exact hm c (mem_normLines _ c hc).2.2
  · intro c _ b hb
    have := sanByte_print c b hb
    simp only [isEol, Bool.or_eq_false_iff, beq_eq_false_iff_ne]
    constructor <;> rintro rfl <;> simp [isPrint] at this

example : ∀ c ∈ [[0x61, 0x00], [0x9B, 0x0D, 0x0A, 0xFF, 0xDE]].flatten,
    c ≠ (0x5E : UInt8) ∧ c ≠ 0x7E ∧ c ≠ 0x60 := by decide

/-- Finding (refutes the recoverability part of C38). The rendering is
ambiguous: control-A and the text "^A" produce the same log. -/
theorem C38_rendering_ambiguous (clk : Nat → List UInt8) (hclk : ∀ k, (clk k).length = 20) :
    logChunks ⟨true, false⟩ clk .init 0 [[0x01]] = logChunks ⟨true, false⟩ clk .init 0 [[0x5E, 0x41]] := by
  rw [logChunks_eq _ clk hclk (by simp), logChunks_eq _ clk hclk (by simp)]
  rfl

end Conman
