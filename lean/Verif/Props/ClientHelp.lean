import Verif.Lemma.ClientOut
import Verif.Lemma.ClientArgs

/-
The help of the client.  (C84)
-/
namespace Conman
open Spec

/-- C84. The help is always complete: a header and one line for each command.  It lists exactly the commands that do something in the current mode (`?` and `I` only
write), says whether echo and quiet mode are on, and names nothing else but the line for the escape character itself. -/
theorem C84_help {stk : List UInt8} (h : 1024 ≤ stk.length) (s : CState) (n : Nat) (hd : s.done = false) (hw : s.wrClosed = false) :
    ∃ rows : List (UInt8 × List UInt8),
      helpMsg stk s n = some (bs "\r\nSupported ConMan Escape Sequences:\r\n" ++ (rows.map fun i => helpRow (s.esc &&& 0x7F) (i.1 &&& 0x7F) i.2).flatten) ∧
      (∀ c ∈ cmdLetters, c ≠ s.esc →
        ((∃ d, (c, d) ∈ rows) ↔ c = 0x3F ∨ c = 0x49 ∨ ({ s with inEsc := true } : CState).key c ≠ ({ s with inEsc := false }, []))) ∧
      (s.esc, bs "Send the escape character.") ∈ rows ∧
      (∀ i ∈ rows, i.1 ∈ cmdLetters ∨ i = (s.esc, bs "Send the escape character.")) ∧
      (∀ d, (0x45, d) ∈ rows → s.esc ≠ 0x45 → d = (if s.echo then bs "Disable echoing of client input." else bs "Enable echoing of client input.")) ∧
      (∀ d, (0x51, d) ∈ rows → s.esc ≠ 0x51 →
        d = (if s.quiet then bs "Disable quiet-mode (display info msgs)." else bs "Enable quiet-mode (suppress info msgs).")) := by
  refine ⟨helpItems s n, helpMsg_eq h s n, ?_, ?_, ?_, ?_, ?_⟩
  · intro c hc hne
    obtain ⟨esc, inEsc, cmd, bcast, force, join, quiet, reset, echo, wrClosed, done⟩ := s
    dsimp only at hd hw hne
    subst hd hw
    simp only [cmdLetters, List.mem_cons, List.not_mem_nil, or_false] at hc
    rcases hc with rfl | rfl | rfl | rfl | rfl | rfl | rfl | rfl | rfl | rfl | rfl | rfl | rfl <;>
      cases cmd <;> cases bcast <;> cases reset <;>
      simp [helpItems, CState.key, CState.escape, CState.sendEsc, CState.send, hne]
  · simp [helpItems]
  · intro i hi
    obtain ⟨esc, inEsc, cmd, bcast, force, join, quiet, reset, echo, wrClosed, done⟩ := s
    cases cmd <;> cases bcast <;> cases reset <;> simp [helpItems] at hi <;> (repeat' (rcases hi with hi | hi)) <;> first
      | exact Or.inr rfl
      | exact Or.inl (by dsimp only; decide)
  · intro d hi hne
    obtain ⟨esc, inEsc, cmd, bcast, force, join, quiet, reset, echo, wrClosed, done⟩ := s
    dsimp only at hne
    have e1 : bs "Disable" ++ bs " echoing of client input." = bs "Disable echoing of client input." := by decide
    have e2 : bs "Enable" ++ bs " echoing of client input." = bs "Enable echoing of client input." := by decide
    cases cmd <;> cases bcast <;> cases reset <;> cases echo <;> simp [helpItems, e1, e2, Ne.symm hne] at hi ⊢ <;> exact hi
  · intro d hi hne
    obtain ⟨esc, inEsc, cmd, bcast, force, join, quiet, reset, echo, wrClosed, done⟩ := s
    dsimp only at hne
    cases cmd <;> cases bcast <;> cases reset <;> cases quiet <;> simp [helpItems, Ne.symm hne] at hi ⊢ <;> exact hi

/-- The help of a session that only monitors. -/
example : helpMsg (List.replicate 1024 0xAA) { esc := 0x26, cmd := .monitor, quiet := true } 1 = some (bs ("\r\nSupported ConMan Escape Sequences:\r\n" ++
    "   &?  -  Display this help message.\r\n   &.  -  Terminate the connection.\r\n   &&  -  Send the escape character.\r\n   &F  -  Force write-privileges (console-stealing).\r\n" ++
    "   &I  -  Display connection information.\r\n   &J  -  Join write-privileges (console-sharing).\r\n   &L  -  Replay up to the last 4096 bytes of the log.\r\n" ++
    "   &Q  -  Disable quiet-mode (display info msgs).\r\n   &Z  -  Suspend the client.\r\n")) := by
  rw [helpMsg_eq (by rw [List.length_replicate]; decide)]; decide +kernel

/-- C84 in part: the line `Send the escape character.` is true when the session can write and the escape character is no letter of a command.  Missing: the three cases below. -/
theorem C84_self_partial (s : CState) (hc : s.cmd = .connect) (he : s.esc < 0x80) (hl : s.esc ∉ cmdLetters) (hd : s.done = false) (hw : s.wrClosed = false) (hi : s.inEsc = false) :
    s.keys [s.esc, s.esc] = (s, if s.esc = escChar then [escChar, escChar] else [s.esc]) := by
  obtain ⟨esc, inEsc, cmd, bcast, force, join, quiet, reset, echo, wrClosed, done⟩ := s
  dsimp only at hc he hl hd hw hi
  subst hc hd hw hi
  have hn := fun s : CState => (escape_none_iff s esc).2 hl
  by_cases h2 : esc = escChar
  · subst h2; simp [CState.keys, CState.key, he, hn, CState.put, CState.send, stuffLoop]
  · simp [CState.keys, CState.key, he, hn, CState.put, CState.send, stuffLoop, h2]

/-- The other cases: a session that only monitors sends nothing (but shows the line); when the escape character is the letter of a command that is what happens. -/
theorem C84_self_otherwise (s : CState) (hd : s.done = false) (hi : s.inEsc = false) (he : s.esc < 0x80) :
    (s.cmd = .monitor → s.esc ∉ cmdLetters → s.keys [s.esc, s.esc] = (s, [])) ∧
    (s.esc ∈ cmdLetters → some (s.keys [s.esc, s.esc]) = s.escape s.esc) := by
  obtain ⟨esc, inEsc, cmd, bcast, force, join, quiet, reset, echo, wrClosed, done⟩ := s
  dsimp only at he hd hi ⊢
  subst hd hi
  refine ⟨fun hc hl => ?_, fun hl => ?_⟩
  · subst hc
    have hn := fun s : CState => (escape_none_iff s esc).2 hl
    simp [CState.keys, CState.key, he, hn, CState.put]
  · cases hq : CState.escape { esc, inEsc := false, cmd, bcast, force, join, quiet, reset, echo, wrClosed, done := false } esc with
    | none => exact absurd hl ((escape_none_iff _ _).1 hq)
    | some r => simp [CState.keys, CState.key, he, hq]

/-- An escape character that is not ASCII never starts a command, and the help shows another one for it. -/
theorem C84_not_ascii (s : CState) (he : ¬ s.esc < 0x80) (hi : s.inEsc = false) (ks : List UInt8) : (s.keys ks).1.inEsc = false ∧ (s.keys ks).1.cmd = s.cmd := by
  induction ks generalizing s with
  | nil => exact ⟨hi, rfl⟩
  | cons k ks ih =>
    have hk : (s.key k).1.inEsc = false ∧ (s.key k).1.esc = s.esc ∧ (s.key k).1.cmd = s.cmd := by
      unfold CState.key
      by_cases hd : s.done = true
      · rw [if_pos hd]; exact ⟨hi, rfl, rfl⟩
      · rw [if_neg hd]
        dsimp only
        rw [if_neg (show ¬(¬ s.inEsc = true ∧ k = s.esc ∧ s.esc < 0x80) from fun g => he g.2.2), if_neg (show ¬ s.inEsc = true by rw [hi]; decide)]
        unfold CState.put CState.send
        split
        · split <;> exact ⟨hi, rfl, rfl⟩
        · exact ⟨hi, rfl, rfl⟩
    obtain ⟨a, b⟩ := ih (s.key k).1 (by rw [hk.2.1]; exact he) hk.1
    exact ⟨a, b.trans hk.2.2⟩

/-- For example, `-e` with the byte 0xC2: the help of the program, and of the session, call it `B`. -/
example : (writeEscChar [0, 0, 0] 0 0xC2).bind (fun r => cstr r.1) = some (bs "B") := by decide

/-- C84. A message about the session is one line, whatever the names of consoles, and fits the array. -/
theorem C84_status {stk : List UInt8} (h : 1024 ≤ stk.length) (consoles : List (List UInt8)) {msg : List UInt8}
    (hm : msg ∈ [bs "opened", bs "closed", bs "suspended", bs "resumed", bs "terminated by server"]) :
    ∃ t, statusMsg stk consoles msg = some t ∧ IsMsg t ∧ t.length ≤ 1023 := by
  apply statusMsg_msg h
  simp only [List.mem_cons, List.not_mem_nil, or_false] at hm
  rcases hm with rfl | rfl | rfl | rfl | rfl <;> decide

/-- C84. The messages in full, when the name is not too long. -/
theorem C84_status_text {stk name : List UInt8} (h : 1024 ≤ stk.length) (hn : (0 : UInt8) ∉ name) (hl : name.length ≤ 900) (other : List (List UInt8)) (ho : other.length ≠ 1) {msg : List UInt8}
    (hm : msg ∈ [bs "opened", bs "closed", bs "suspended", bs "resumed", bs "terminated by server"]) :
    statusMsg stk [name] msg = some (bs "\r\n<ConMan> Connection to console [" ++ name ++ bs "] " ++ msg ++ bs ".\r\n") ∧
    (other.length < 1000000 → statusMsg stk other msg = some (bs "\r\n<ConMan> Broadcast to " ++ dec other.length ++ bs " consoles " ++ msg ++ bs ".\r\n")) := by
  have hz : (0 : UInt8) ∉ msg := by
    simp only [List.mem_cons, List.not_mem_nil, or_false] at hm
    rcases hm with rfl | rfl | rfl | rfl | rfl <;> decide
  have hml : msg.length ≤ 20 := by
    simp only [List.mem_cons, List.not_mem_nil, or_false] at hm
    rcases hm with rfl | rfl | rfl | rfl | rfl <;> decide
  have e1 : bs "\r\n<ConMan> Connection to console [" = bs "\r\n<ConMan> " ++ bs "Connection to console [" := by decide
  have e2 : bs "\r\n<ConMan> Broadcast to " = bs "\r\n<ConMan> " ++ bs "Broadcast to " := by decide
  have l1 : (bs "\r\n<ConMan> Connection to console [").length = 34 := by decide
  have l2 : (bs "\r\n<ConMan> Broadcast to ").length = 24 := by decide
  have l3 : (bs "] ").length = 2 := by decide
  have l4 : (bs ".\r\n").length = 3 := by decide
  have l5 : (bs " consoles ").length = 10 := by decide
  refine ⟨?_, fun hlt => ?_⟩
  · have ht : statusText [name] msg = bs "\r\n<ConMan> Connection to console [" ++ name ++ bs "] " ++ msg ++ bs ".\r\n" := by
      unfold statusText statusWho
      dsimp only
      rw [show argS name = name from takeWhile_nul hn, e1]
      simp only [List.append_assoc]
    rw [statusMsg_eq h _ hz, ht, if_pos]
    simp only [List.length_append, l1, l3, l4]; omega
  · have ht : statusText other msg = bs "\r\n<ConMan> Broadcast to " ++ dec other.length ++ bs " consoles " ++ msg ++ bs ".\r\n" := by
      unfold statusText statusWho
      split
      · simp at ho
      · rw [e2]; simp only [List.append_assoc]
    have hdl : (dec other.length).length ≤ 6 := dec_length_le _ 6 (by omega) (by omega)
    rw [statusMsg_eq h _ hz, ht, if_pos]
    simp only [List.length_append, l2, l4, l5]; omega

/-- Both kinds of messages; with no name the text is that of a broadcast, to 0 consoles. -/
example : statusMsg (List.replicate 1024 0xAA) [bs "n1"] (bs "closed") = some (bs "\r\n<ConMan> Connection to console [n1] closed.\r\n") ∧
    statusMsg (List.replicate 1024 0xAA) [bs "n1", bs "n2"] (bs "suspended") = some (bs "\r\n<ConMan> Broadcast to 2 consoles suspended.\r\n") ∧
    statusMsg (List.replicate 1024 0xAA) [] (bs "resumed") = some (bs "\r\n<ConMan> Broadcast to 0 consoles resumed.\r\n") := by decide +kernel

end Conman
