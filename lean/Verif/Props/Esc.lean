import Verif.Lemma.Esc

/-
C07, C08: the escape protocol between client and server.
-/
namespace Conman
open Spec

/-- C07. Whatever the user types, however the resulting byte stream is cut into
reads by the network: the server forwards exactly the data bytes the user typed
while in read-write mode, in order, and acts on exactly the commands the user
gave that apply in the session's mode, in order. The client starts outside an
escape sequence with an escape character below 0x80, in any mode. -/
theorem C07_escape_transparency (s : CState) (keys : List UInt8) (chunks : List (List UInt8))
    (hesc : s.esc < 0x80) (hin : s.inEsc = false) (hopen : s.wrClosed = false)
    (hdone : s.done = false)
    (hchunks : chunks.flatten = (s.keys keys).2) :
    unescChunks false chunks =
      (false,
       ((⟨s.cmd = .connect, s.bcast, s.reset, false⟩ : View).run (parseKeys s.esc keys)).2) := by
  have hr : Rel s ⟨s.cmd = .connect, s.bcast, s.reset, false⟩ :=
    ⟨fun _ => by simp, rfl, rfl, by simp [hopen], fun h => by simp [hdone] at h⟩
  have h := session_sim keys s _ hr hesc hin
  rw [unescChunks_eq, hchunks, h.2]

/-- Non-vacuity: '&' as escape character; a command, 0xFF data and a literal
'&' cut into three reads. -/
example : ∃ (s : CState) (keys : List UInt8) (chunks : List (List UInt8)),
    s.esc < 0x80 ∧ s.inEsc = false ∧ s.wrClosed = false ∧ s.done = false ∧
    keys = [0x61, 0xFF, 0x26, 0x42, 0x26, 0x26, 0x26, 0x7A] ∧
    chunks.flatten = (s.keys keys).2 ∧ chunks = [[0x61, 0xFF], [0xFF, 0xFF], [0x42, 0x26, 0x26, 0x7A]] ∧
    unescChunks false chunks = (false, [0x61, 0xFF, 0x26, 0x26, 0x7A], [0x42]) :=
  ⟨{ esc := 0x26 }, _, _, by decide, rfl, rfl, rfl, rfl, by decide, rfl, by
    rw [unescChunks_eq]; decide⟩

/-- Finding. With an escape character of 0x80 or above no escape sequence is
ever recognised: everything typed goes to the console. -/
theorem C07_high_escape_char_dead (s : CState) (keys : List UInt8)
    (hesc : 0x80 ≤ s.esc) (hin : s.inEsc = false) (hcmd : s.cmd = .connect)
    (hopen : s.wrClosed = false) (hdone : s.done = false) :
    unescChunks false [(s.keys keys).2] = (false, keys, []) := by
  have hne : ¬ s.esc < 0x80 := by
    intro h; exact absurd h (UInt8.not_lt.2 hesc)
  have hput : ∀ c, s.key c = (s, if c = escChar then [c, c] else [c]) := by
    intro c
    simp only [CState.key, hdone, hin, hne, and_false, CState.put, hcmd, CState.send, hopen]
    simp only [Bool.false_eq_true, if_false, if_true]
    simpa using stuffLoop_eq [c]
  have hkeys : s.keys keys = (s, keys.flatMap (fun c => if c = escChar then [c, c] else [c])) := by
    induction keys with
    | nil => rfl
    | cons c cs ih => simp [CState.keys, hput, ih]
  rw [hkeys, unescChunks_eq]
  simpa using unescRef_stuff keys

example : ∃ s : CState, 0x80 ≤ s.esc ∧ s.inEsc = false ∧ s.cmd = .connect ∧
    s.wrClosed = false ∧ s.done = false := ⟨{ esc := 0x9B }, by decide, rfl, rfl, rfl, rfl⟩

/-- C08. The bytes the server forwards and the escape codes it acts on depend
only on the byte stream, not on how it is split into reads. -/
theorem C08_split_independent (esc : Bool) (chunks : List (List UInt8)) :
    unescChunks esc chunks = unescChunks esc [chunks.flatten] := by
  simp [unescChunks_eq]

/-- C08. Escape processing never enlarges the data: it stays inside the read
buffer and returns at most the number of bytes read. -/
theorem C08_no_growth (esc : Bool) (src : List UInt8) :
    (processClientEscapes esc src).buf.length = src.length ∧
    (processClientEscapes esc src).len ≤ src.length := by
  have := unescLoop_eq src 0 0 esc [] (by omega) (by omega)
  exact ⟨this.2.2.2.2, this.2.2.2.1⟩

/-- Splits inside an escape pair. -/
example : unescChunks false [[0x61, 0xFF], [0xFF, 0xFF], [0x42]] = (false, [0x61, 0xFF], [0x42]) := by
  rw [unescChunks_eq]; decide

end Conman
