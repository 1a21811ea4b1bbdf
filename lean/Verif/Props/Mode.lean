import Verif.Lemma.WorldMode
import Verif.Spec.Demo

/-
C13: client and server agree on the session mode.
-/
namespace Conman
open Spec

/-- C13. A session exists between the client program (state `s`) and the daemon's client object `c`, and
they agree on the mode.  The user types `keys`; the bytes the client program sends for them reach the daemon
in any number of reads (of at most 8191 bytes), interleaved in any way with anything else that happens, and no
part of them is still under way.  If then the session was not taken away (`c` still exists and is not marked
end-of-file), the two still agree: the client program is in read-write mode exactly when what `c` sends is
passed on to a console. -/
theorem C13_modes_agree {env : Env} {w w' : World} (h : Reachable env w) (c : Nat) (ss : List Step)
    (s : CState) (keys : List UInt8)
    (hesc : s.esc < 0x80) (hin : s.inEsc = false) (hopen : s.wrClosed = false) (hdone : s.done = false)
    (hl : c ∈ w.live) (hk : (w.obj c).kind = .client) (hge : (w.obj c).gotEscape = false)
    (hbc : (w.obj c).bcast = true → s.bcast = true ∧ s.cmd = .connect)
    (hagree : s.cmd = .connect ↔ (w.obj c).readers ≠ [])
    (hrun : w.run env ss = some w')
    (hng : ss.all (noGrant c) = true) (hlen : ∀ t ∈ ss, (readFrom c t).length ≤ 8191)
    (hbytes : ss.flatMap (readFrom c) = (s.keys keys).2)
    (hl' : c ∈ w'.live) (he' : (w'.obj c).eof = false) (hopen' : (s.keys keys).1.wrClosed = false) :
    (s.keys keys).1.cmd = .connect ↔ (w'.obj c).readers ≠ [] := by
  obtain ⟨-, -, hm⟩ := run_mode c ss h.einv hrun hng hlen hl hk hl'
  have m := hm he'
  have hr : Rel s ⟨s.cmd = .connect, s.bcast, s.reset, false⟩ :=
    ⟨fun _ => by simp, rfl, rfl, by simp [hopen], fun h => by simp [hdone] at h⟩
  obtain ⟨hr', hu⟩ := session_sim keys s _ hr hesc hin
  have hv := View.run_mode (parseKeys s.esc keys) ⟨s.cmd = .connect, s.bcast, s.reset, false⟩
  rw [← hr'.rw hopen']
  cases hb : (w.obj c).bcast with
  | true =>
    obtain ⟨b1, b2⟩ := hbc hb
    rw [hv.2 b1 (by simpa using b2), m.bc hb]
    simp [← hagree, b2]
  | false =>
    have e := m.mode hb
    rw [hge, hbytes, hu] at e
    dsimp only at e
    rw [hv.1]
    have : decide (s.cmd = .connect) = decide ((w.obj c).readers ≠ []) := by
      simp only [hagree]
    rw [← this] at e
    dsimp only
    rw [← e]
    simp

/-- The user types "a", &M, "b", &J (a joins again); the network cuts the stream in the middle of a
command and another client comes in between. -/
example : let w := Demo.after Demo.one
    let s : CState := { esc := 0x26 }
    let keys : List UInt8 := [0x61, 0x26, 0x4D, 0x62, 0x26, 0x4A]
    let ss : List Step := [.poll 10 true (some (.data [0x61, 0xFF])) none, .check Demo.mon, .grant 11 0,
      .poll 10 true (some (.data [0x4D, 0xFF, 0x4A])) none]
    let w' := Demo.after (Demo.one ++ ss)
    Reachable Demo.env w ∧ 10 ∈ w.live ∧ (w.obj 10).kind = .client ∧ (w.obj 10).gotEscape = false ∧
    (w.obj 10).bcast = false ∧ s.cmd = .connect ∧ (w.obj 10).readers = [0] ∧ (w.run Demo.env ss).isSome = true ∧
    ss.all (noGrant 10) = true ∧ ss.flatMap (readFrom 10) = (s.keys keys).2 ∧ 10 ∈ w'.live ∧ (w'.obj 10).eof = false ∧
    (s.keys keys).1.wrClosed = false ∧ (s.keys keys).1.cmd = .connect :=
  ⟨Demo.reach _ (by decide +kernel), by decide +kernel, by decide +kernel, by decide +kernel, by decide +kernel,
    by decide +kernel, by decide +kernel, by decide +kernel, by decide +kernel, by decide +kernel, by decide +kernel,
    by decide +kernel, by decide +kernel, by decide +kernel⟩

end Conman
