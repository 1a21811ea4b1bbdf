import Verif.Lemma.EscLog
import Verif.Props.LogMsg

/-
C79: what a connected client can write into the log of the daemon.
-/
namespace Conman
open Spec

/-- C79 is false of escape codes the daemon does not know, which are written as they are received.  A client that sends the escape and a NUL byte causes a message that is cut in
the middle and has no newline: the next message, whatever it is, goes on in the same line. -/
theorem C79_joined (stamp name buf buf' : List UInt8) (level : Int) (stamps sys : Bool) (next : LogCall) (hb : buf.length = 1024) (hb' : buf'.length = 1024)
    (h1 : stamp ≠ []) (h2 : stamp.length ≤ 900) (h3 : (0 : UInt8) ∉ stamp) (hl : 4 ≤ level) (hn : next.ok) (hp : next.prio ≤ level) :
    ∃ m, escMsgs stamp name false [0xFF, 0] = [m] ∧
    ∃ s' os, logRun { file := some (level, stamps), syslog := sys } [(buf, m, false), (buf', next, false)] = some (s', os) ∧
      (os.map LogOut.file).flatten = (if stamps then stamp else []) ++ bs "WARNING:   Received invalid escape '" ++ (if stamps then next.line else next.line.drop next.stamp.length) := by
  have ea : (processClientEscapes false [0xFF, 0]).acts = [0] := by decide +kernel
  refine ⟨invalidEsc stamp name 0, ?_, ?_⟩
  · unfold escMsgs
    rw [ea]
    rfl
  · have l1 : (bs "Received invalid escape '").length = 25 := by decide
    obtain ⟨o, e, q, _⟩ := logAux_nul (c := invalidEsc stamp name 0) (buf := buf) (a := bs "Received invalid escape '") (b := bs "' from " ++ name) level stamps sys hb h1 h3 rfl rfl
      (by unfold invalidEsc; simp only [List.append_assoc, List.cons_append, List.nil_append]) (by decide) (by rw [l1]; unfold invalidEsc; dsimp only; omega) hl
    obtain ⟨s2, o2, e2, _, k, _⟩ := C79_line { file := some (level, stamps), syslog := sys } buf' next false hb' hn
    refine ⟨s2, [o, o2], ?_, ?_⟩
    · rw [logRun, e, Option.bind_some]
      dsimp only
      rw [logRun, e2, Option.bind_some]
      rfl
    · have k2 := (k level stamps rfl hp rfl).2
      rw [List.map_cons, List.map_cons, List.map_nil, List.flatten_cons, List.flatten_cons, List.flatten_nil, List.append_nil, q, k2]
      have eh : logHead 4 ++ bs "Received invalid escape '" = bs "WARNING:   Received invalid escape '" := by decide
      have ep : (invalidEsc stamp name 0).prio = 4 := rfl
      rw [ep, List.append_assoc _ (logHead _), eh]
      rfl

/-- C79: a client that sends the escape and a newline has its message split: the second line has neither time nor priority and starts with the quote. -/
theorem C79_split (stamp name buf : List UInt8) (level : Int) (stamps sys : Bool) (hb : buf.length = 1024)
    (h1 : stamp ≠ []) (h2 : stamp.length ≤ 30) (h3 : (0 : UInt8) ∉ stamp ++ name) (h4 : (0x0A : UInt8) ∉ name) (h5 : name.length ≤ 900) (hl : 4 ≤ level) :
    ∃ m, escMsgs stamp name false [0xFF, 0x0A] = [m] ∧
    ∃ s' o, logAux { file := some (level, stamps), syslog := sys } buf m false = some (s', o) ∧ IsLine o.file (bs "' from " ++ name) := by
  have ea : (processClientEscapes false [0xFF, 0x0A]).acts = [0x0A] := by decide +kernel
  rw [List.mem_append, not_or] at h3
  refine ⟨invalidEsc stamp name 0x0A, ?_, ?_⟩
  · unfold escMsgs
    rw [ea]
    rfl
  · have hc : (invalidEsc stamp name 0x0A).ok := by
      refine ⟨h1, by unfold invalidEsc; dsimp only; omega, h3.1, ?_, by unfold invalidEsc; simp⟩
      unfold invalidEsc
      simp only [List.mem_append, not_or]
      exact ⟨⟨⟨by decide, by decide⟩, by decide⟩, h3.2⟩
    obtain ⟨s', o, e, _, k, _⟩ := C79_line { file := some (level, stamps), syslog := sys } buf _ false hb hc
    refine ⟨s', o, e, ?_⟩
    rw [(k level stamps rfl hl rfl).2]
    have l1 : (bs "WARNING:   Received invalid escape '").length = 36 := by decide
    have l2 : (bs "' from ").length = 7 := by decide
    have el : (invalidEsc stamp name 0x0A).line = stamp ++ ((bs "WARNING:   Received invalid escape '" ++ [0x0A]) ++ (bs "' from " ++ name) ++ 0x0A :: []) := by
      have eh : bs "WARNING:   Received invalid escape '" = logHead 4 ++ bs "Received invalid escape '" := by decide
      have ef : (invalidEsc stamp name 0x0A).full = stamp ++ ((bs "WARNING:   Received invalid escape '" ++ [0x0A]) ++ (bs "' from " ++ name)) := by
        rw [eh]
        unfold invalidEsc LogCall.full LogCall.errText
        simp only [List.append_assoc, Bool.false_eq_true, if_false, List.append_nil]
      unfold LogCall.line
      rw [ef, List.take_of_length_le (by simp only [List.length_append, List.length_singleton, l1, l2]; omega)]
      simp only [List.append_assoc]
      rfl
    rw [el]
    refine ⟨by rw [List.mem_append, not_or]; exact ⟨by decide, h4⟩, ?_⟩
    cases stamps with
    | true => exact ⟨stamp ++ (bs "WARNING:   Received invalid escape '" ++ [0x0A]), [], by simp only [List.append_assoc, if_true], Or.inr (by simp)⟩
    | false =>
      refine ⟨bs "WARNING:   Received invalid escape '" ++ [0x0A], [], ?_, Or.inr (by simp)⟩
      rw [if_neg (by decide)]
      exact List.drop_left' rfl

/-- C79 (partial): every other code that is not known causes exactly one line, with the code in it; a known one causes none.  Missing: the codes NUL and newline (`C79_joined`, `C79_split`). -/
theorem C79_code_partial (stamp name buf : List UInt8) (c : UInt8) (level : Int) (stamps sys : Bool) (hb : buf.length = 1024)
    (h1 : stamp ≠ []) (h2 : stamp.length ≤ 30) (h3 : (0 : UInt8) ∉ stamp ++ name) (h4 : (0x0A : UInt8) ∉ stamp ++ name) (h5 : name.length ≤ 900) (hl : 4 ≤ level) (hc0 : c ≠ 0) (hcn : c ≠ 0x0A) :
    (c ∈ [0xFF] ++ bs "BDFJLMQRZ" → escMsgs stamp name false [0xFF, c] = []) ∧
    (c ∉ [0xFF] ++ bs "BDFJLMQRZ" → ∃ m, escMsgs stamp name false [0xFF, c] = [m] ∧
      ∃ s' o, logAux { file := some (level, stamps), syslog := sys } buf m false = some (s', o) ∧ o.file.count 0x0A = 1 ∧
        o.file = (if stamps then stamp else []) ++ (bs "WARNING:   Received invalid escape '" ++ [c] ++ bs "' from " ++ name ++ [0x0A])) := by
  have hk : knownCode c = decide (c ∈ [0xFF] ++ bs "BDFJLMQRZ") := by
    have e : [escChar, 0x42, 0x44, 0x46, 0x4A, 0x4C, 0x4D, 0x51, 0x52, 0x5A] = [0xFF] ++ bs "BDFJLMQRZ" := by decide
    unfold knownCode
    rw [e]
  have ea : (processClientEscapes false [0xFF, c]).acts = if c = 0xFF then [] else [c] := by
    unfold processClientEscapes
    by_cases h : c = 255
    · subst h; decide +kernel
    · rw [if_neg h]
      simp [unescLoop, escChar, h]
  rw [List.mem_append, not_or] at h3 h4
  refine ⟨fun hm => ?_, fun hm => ⟨invalidEsc stamp name c, ?_, ?_⟩⟩
  · unfold escMsgs
    rw [ea]
    split
    · rfl
    · rw [List.filter_cons_of_neg (by rw [hk, decide_eq_true hm]; decide)]; rfl
  · unfold escMsgs
    rw [ea, if_neg (by rintro rfl; exact hm (by decide))]
    rw [List.filter_cons_of_pos (by rw [hk, decide_eq_false hm]; rfl)]; rfl
  · have hc : (invalidEsc stamp name c).ok := by
      refine ⟨h1, by unfold invalidEsc; dsimp only; omega, h3.1, ?_, by unfold invalidEsc; simp⟩
      unfold invalidEsc
      simp only [List.mem_append, List.mem_singleton, not_or]
      exact ⟨⟨⟨by decide, fun h => hc0 h.symm⟩, by decide⟩, h3.2⟩
    obtain ⟨s', o, e, _, k, _⟩ := C79_line { file := some (level, stamps), syslog := sys } buf _ false hb hc
    have l1 : (bs "WARNING:   Received invalid escape '").length = 36 := by decide
    have l2 : (bs "' from ").length = 7 := by decide
    have el : (invalidEsc stamp name c).line = stamp ++ (bs "WARNING:   Received invalid escape '" ++ [c] ++ bs "' from " ++ name ++ [0x0A]) := by
      have eh : bs "WARNING:   Received invalid escape '" = logHead 4 ++ bs "Received invalid escape '" := by decide
      have ef : (invalidEsc stamp name c).full = stamp ++ (bs "WARNING:   Received invalid escape '" ++ [c] ++ bs "' from " ++ name) := by
        rw [eh]
        unfold invalidEsc LogCall.full LogCall.errText
        simp only [List.append_assoc, Bool.false_eq_true, if_false, List.append_nil]
      unfold LogCall.line
      rw [ef, List.take_of_length_le (by simp only [List.length_append, List.length_singleton, l1, l2]; omega)]
      simp only [List.append_assoc]
      rfl
    have ef : o.file = (if stamps then stamp else []) ++ (bs "WARNING:   Received invalid escape '" ++ [c] ++ bs "' from " ++ name ++ [0x0A]) := by
      rw [(k level stamps rfl hl rfl).2, el]
      cases stamps with
      | true => rfl
      | false =>
        rw [if_neg (by decide), if_neg (by decide)]
        exact List.drop_left' rfl
    refine ⟨s', o, e, ?_, ef⟩
    have z1 : (bs "WARNING:   Received invalid escape '").count 0x0A = 0 := by decide
    have z2 : (bs "' from ").count 0x0A = 0 := by decide
    have z3 : ([c] : List UInt8).count 0x0A = 0 := List.count_eq_zero_of_not_mem (by rw [List.mem_singleton]; exact fun h => hcn h.symm)
    have z4 : (if stamps then stamp else []).count 0x0A = 0 := List.count_eq_zero_of_not_mem (by cases stamps <;> simp [h4.1])
    rw [ef]
    simp only [List.count_append, z1, z2, z3, z4, List.count_eq_zero_of_not_mem h4.2]
    rfl

/-- A log in which one client hides the message about another. -/
example : ((logRun { file := some (6, true) }
      ((escMsgs (bs "T ") (bs "eve@h:9") false [0xFF, 0]).map (fun m => (List.replicate 1024 7, m, false)) ++
        [(List.replicate 1024 7, { stamp := bs "T ", prio := 6, text := bs "Client <bob@h:8> issued query" }, false)])).map fun x => (x.2.map LogOut.file).flatten) =
    some (bs "T WARNING:   Received invalid escape 'T INFO:      Client <bob@h:8> issued query\n") := by decide +kernel

/-- The hypotheses of `C79_joined`, `C79_split` and `C79_code_partial` are met. -/
example : LogCall.ok { stamp := bs "2026-01-02 03:04:05 ", prio := 4, text := bs "Console [db1] lost" } ∧
    (0 : UInt8) ∉ bs "2026-01-02 03:04:05 " ++ bs "eve@host:1023" ∧ (0x0A : UInt8) ∉ bs "2026-01-02 03:04:05 " ++ bs "eve@host:1023" := by
  unfold LogCall.ok; decide

/-- Two codes that are not known among data and a known one. -/
example : (escMsgs (bs "T ") (bs "eve@h:9") false [0x61, 0xFF, 0x78, 0xFF, 0x46, 0xFF, 0xFF, 0xFF, 0x79]).map LogCall.text =
    [bs "Received invalid escape 'x' from eve@h:9", bs "Received invalid escape 'y' from eve@h:9"] := by decide +kernel

end Conman
