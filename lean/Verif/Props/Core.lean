import Verif.Model.Core
import Verif.Props.Conf

/-
C109: cores of a daemon that fails.
-/
namespace Conman
open Spec

/-- C109. The daemon does not start exactly if cores are wanted and either their directory has no name that fits, or their size is limited and the daemon may not change that. -/
theorem C109_start (E : CoreEnv) (c : SConf) : setupCore E c = none ↔
    c.coreDump = true ∧ ((c.coreDumpDir = none ∧ 4096 ≤ E.cwd.length) ∨ (E.hard ≠ none ∧ E.root = false)) := by
  unfold setupCore
  cases hc : c.coreDump
  · simp
  · rw [if_pos rfl]
    cases hd : c.coreDumpDir with
    | none =>
      by_cases hl : E.cwd.length < 4096
      · cases hh : E.hard <;> cases hr : E.root <;> simp [hl]
      · have : 4096 ≤ E.cwd.length := by omega
        simp [hl, this]
    | some d => cases hh : E.hard <;> cases hr : E.root <;> simp

/-- C109. However it ends: it is the signal that kills the daemon; a core is written only if that was configured, with no limit of its size then, and nobody else may read it;
the signal is told. -/
theorem C109_core {E : CoreEnv} {c : SConf} {k : CoreSet} (h : setupCore E c = some k) (cd : List UInt8 → Option (List UInt8)) (sig : Nat) :
    (crash E k cd sig).sig = sig ∧ (crash E k cd sig).mask = 0o77 ∧ (crash E k cd sig).limit = (if c.coreDump then none else some 0) ∧
    ∃ m, (crash E k cd sig).said.head? = some (bs "Terminating on signal=" ++ dec sig ++ m) := by
  have hk : k.limit = if c.coreDump then none else some 0 := by
    unfold setupCore at h
    cases hc : c.coreDump
    · rw [hc, if_neg (by decide)] at h
      cases h; rfl
    · rw [hc, if_pos rfl] at h
      obtain ⟨d, _, h⟩ := Option.bind_eq_some_iff.mp h
      by_cases hg : (E.hard.isSome && !E.root) = true
      · rw [if_pos hg] at h; cases h
      · rw [if_neg hg] at h; cases h; rfl
  unfold crash
  dsimp only
  split
  all_goals exact ⟨rfl, rfl, hk, _, rfl⟩

theorem crash_on {E : CoreEnv} {d : List UInt8} (hd : d ≠ []) (cd : List UInt8 → Option (List UInt8)) (sig : Nat) :
    crash E ⟨true, d, none⟩ cd sig = match cd d with
      | none => ⟨[bs "Terminating on signal=" ++ dec sig ++ bs " (check \"" ++ d ++ bs "\" for core)"], d, 0o77, none, sig⟩
      | some e => ⟨[bs "Terminating on signal=" ++ dec sig ++ bs " (check \"" ++ d ++ bs "\" for core)",
          bs "Unable to change directory to coredumpdir \"" ++ d ++ bs "\": " ++ e], runDir E, 0o77, none, sig⟩ := by
  unfold crash
  have hu : (true && decide (d ≠ [])) = true := by simp [hd]
  dsimp only
  rw [hu, if_pos rfl, if_pos rfl]
  cases cd d <;> simp [List.append_assoc]

/-- C109. With a directory for cores: the daemon is there when it is killed, and says so; if it cannot go there it says that too, and stays where it is (in the background,
in the root directory). -/
theorem C109_dir {E : CoreEnv} {c : SConf} {k : CoreSet} (h : setupCore E c = some k) (hc : c.coreDump = true) {d : List UInt8} (hd : c.coreDumpDir = some d) (h0 : d ≠ [])
    (hl : d.length < 4096) (cd : List UInt8 → Option (List UInt8)) (sig : Nat) :
    (cd d = none → (crash E k cd sig).dir = d ∧ (crash E k cd sig).said = [bs "Terminating on signal=" ++ dec sig ++ bs " (check \"" ++ d ++ bs "\" for core)"]) ∧
    (∀ e, cd d = some e → (crash E k cd sig).dir = (if E.fg then E.cwd else bs "/") ∧
      (crash E k cd sig).said = [bs "Terminating on signal=" ++ dec sig ++ bs " (check \"" ++ d ++ bs "\" for core)",
        bs "Unable to change directory to coredumpdir \"" ++ d ++ bs "\": " ++ e]) := by
  have hk : k = ⟨true, d, none⟩ := by
    unfold setupCore at h
    rw [hc, if_pos rfl, hd] at h
    simp only [Option.bind_some, List.take_of_length_le (show d.length ≤ 4095 by omega)] at h
    by_cases hg : (E.hard.isSome && !E.root) = true
    · rw [if_pos hg] at h; cases h
    · rw [if_neg hg] at h; cases h; rfl
  subst hk
  rw [crash_on h0]
  constructor
  · intro he; rw [he]; exact ⟨rfl, rfl⟩
  · intro e he; rw [he]; exact ⟨rfl, rfl⟩

/-- C109. Without cores: the daemon stays where it is, and speaks of no core. -/
theorem C109_off {E : CoreEnv} {c : SConf} {k : CoreSet} (h : setupCore E c = some k) (hc : c.coreDump = false) (cd : List UInt8 → Option (List UInt8)) (sig : Nat) :
    crash E k cd sig = ⟨[bs "Terminating on signal=" ++ dec sig], if E.fg then E.cwd else bs "/", 0o77, some 0, sig⟩ := by
  unfold setupCore at h
  rw [hc, if_neg (by decide)] at h
  cases h
  simp [crash, runDir]

/-! ### Without a directory

Full statement (conman.conf(5)): without `coredumpdir` the core is written in the current directory, or in `/` if the daemon runs in the background. The latter does not hold
(`C109_background`): the directory is asked for before the daemon leaves it. -/

/-- C109. In the foreground, without `coredumpdir`: the daemon is in the directory it was started in. -/
theorem C109_default_partial {E : CoreEnv} {c : SConf} {k : CoreSet} (h : setupCore E c = some k) (hd : c.coreDumpDir = none) (hf : E.fg = true)
    (cd : List UInt8 → Option (List UInt8)) (sig : Nat) : (crash E k cd sig).dir = E.cwd := by
  cases hc : c.coreDump
  · rw [C109_off h hc, hf]; rfl
  · unfold setupCore at h
    rw [hc, if_pos rfl, hd] at h
    have hr : runDir E = E.cwd := by unfold runDir; rw [hf]; rfl
    obtain ⟨d, hd, h⟩ := Option.bind_eq_some_iff.mp h
    have hdc : d = E.cwd := by
      dsimp only at hd
      by_cases hl : E.cwd.length < 4096
      · rw [if_pos hl] at hd; cases hd; rfl
      · rw [if_neg hl] at hd; cases hd
    by_cases hg : (E.hard.isSome && !E.root) = true
    · rw [if_pos hg] at h; cases h
    · rw [if_neg hg] at h
      cases h
      unfold crash
      dsimp only
      split
      · exact hr
      · exact hdc
      · exact hr

/-- C109. In the background, without `coredumpdir`: the daemon leaves the root directory for that in which it was started, whenever it can. -/
theorem C109_background {E : CoreEnv} {c : SConf} {k : CoreSet} (h : setupCore E c = some k) (hc : c.coreDump = true) (hd : c.coreDumpDir = none) (hw : E.cwd ≠ [])
    (cd : List UInt8 → Option (List UInt8)) (hcd : cd E.cwd = none) (sig : Nat) : (crash E k cd sig).dir = E.cwd := by
  unfold setupCore at h
  rw [hc, if_pos rfl, hd] at h
  obtain ⟨d, hd, h⟩ := Option.bind_eq_some_iff.mp h
  have hdc : d = E.cwd := by
    dsimp only at hd
    by_cases hl : E.cwd.length < 4096
    · rw [if_pos hl] at hd; cases hd; rfl
    · rw [if_neg hl] at hd; cases hd
  by_cases hg : (E.hard.isSome && !E.root) = true
  · rw [if_pos hg] at h; cases h
  · rw [if_neg hg] at h
    cases h
    rw [hdc, crash_on hw, hcd]

/-- From a configuration to the end by signal 11 of a daemon started in /home/u; the directory /gone is not there any more. -/
def coreDemo (s : String) (fg : Bool) (hard : Option Nat) : Option (Option CoreEnd) :=
  (readDemo s).map fun c => (setupCore ⟨fg, bs "/home/u", hard, false⟩ c).map fun k =>
    crash ⟨fg, bs "/home/u", hard, false⟩ k (fun d => if d = bs "/gone" then some (bs "No such file or directory") else none) 11

example : coreDemo "SERVER coredump=on\n" false none = some (some ⟨[bs "Terminating on signal=11 (check \"/home/u\" for core)"], bs "/home/u", 63, none, 11⟩) ∧
    coreDemo "SERVER coredump=on\n" true none = some (some ⟨[bs "Terminating on signal=11 (check \"/home/u\" for core)"], bs "/home/u", 63, none, 11⟩) ∧
    coreDemo "SERVER coredump=on\n" true (some 0) = some none ∧
    coreDemo "SERVER coredump=off\n" false (some 0) = some (some ⟨[bs "Terminating on signal=11"], bs "/", 63, some 0, 11⟩) :=
  ⟨by decide +kernel, by decide +kernel, by decide +kernel, by decide +kernel⟩

example : crash ⟨false, bs "/home/u", none, false⟩ ⟨true, bs "/gone", none⟩ (fun d => if d = bs "/gone" then some (bs "No such file or directory") else none) 6 =
    ⟨[bs "Terminating on signal=6 (check \"/gone\" for core)", bs "Unable to change directory to coredumpdir \"/gone\": No such file or directory"], bs "/", 63, none, 6⟩ := by
  decide +kernel

end Conman
