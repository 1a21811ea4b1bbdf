import Verif.Model.ConfLoad
import Verif.Props.File
import Verif.Lemma.ConfKeys
import Verif.Props.Conf

/-
C118: the configuration is what the file has.
-/
namespace Conman
open Spec

/-- The text ends at its first NUL byte. -/
theorem processConfig_nul (env : CEnv) (a b : List UInt8) (c : SConf) (ha : (0 : UInt8) ∉ a) : processConfig env (a ++ 0 :: b) c = processConfig env a c := by
  obtain ⟨ts, h1, h2, _⟩ := lexAll_spec (C17_tables.2 env.withIpmi) [] (a.length + 1) (lexCreate (a ++ [0])) [] a (by omega) rfl ha (by simp [lexCreate, newlines]) (by simp [Seam])
  have h3 := lexAll_complete (C17_tables.2 env.withIpmi) (b ++ [0]) h1 ((a ++ 0 :: b).length + 1) (lexCreate (a ++ 0 :: b ++ [0])) (by simp; omega) (by simp [lexCreate]) ha
    (by simp [lexCreate, newlines]) (by simp [Seam])
  unfold processConfig
  rw [h2, h3]

/-- C118 (partial). If the file has the length it was said to have, the configuration is that of its text up to the first NUL byte, whatever the memory held before and however the calls of
`read` divide it or are interrupted; and the daemon gets there if no call fails and enough of them are answered.  Missing: the rest of a text with a NUL byte (`C118_nul`), pipes
(`C118_pipe`) and files that change in between (`C118_grown`, `C118_shrunk`). -/
theorem C118_file_partial (env : CEnv) (sched : List Sys) (data mem : List UInt8) (c : SConf) (hm : mem.length = data.length) :
    (∀ r, loadConf env data.length sched data mem c = .parsed r → r = processConfig env (data.takeWhile (· ≠ 0)) c) ∧
    (loadConf env data.length sched data mem c = .unable → Sys.fail ∈ sched) ∧
    (Sys.fail ∉ sched → data.length < (sched.filter (· ≠ .intr)).length → loadConf env data.length sched data mem c = .parsed (processConfig env (data.takeWhile (· ≠ 0)) c)) := by
  have hcut : processConfig env data c = processConfig env (data.takeWhile (· ≠ 0)) c := by
    have hz : (0 : UInt8) ∉ data.takeWhile (· ≠ 0) := by
      intro g
      have := List.all_takeWhile (p := fun x : UInt8 => decide (x ≠ 0)) (l := data)
      rw [List.all_eq_true] at this
      simpa using this 0 g
    have e : data.takeWhile (· ≠ 0) ++ data.dropWhile (· ≠ 0) = data := List.takeWhile_append_dropWhile
    cases hd : data.dropWhile (· ≠ 0) with
    | nil => rw [hd, List.append_nil] at e; rw [e]
    | cons x r =>
      have hx := List.head?_dropWhile_not (fun x : UInt8 => decide (x ≠ 0)) data
      rw [hd] at hx
      have hx : x = 0 := by simpa using hx
      rw [hd, hx] at e
      conv => lhs; rw [← e]
      exact processConfig_nul env _ r c hz
  obtain ⟨_, _, h3, h4, h5⟩ := C25_read data.length sched data
  have hp : ∀ m, (readN data.length sched data [] data.length).fin = .ret m →
      loadConf env data.length sched data mem c = .parsed (processConfig env (data.takeWhile (· ≠ 0)) c) := by
    intro m h
    obtain ⟨_, g⟩ := h3 m h
    unfold loadConf
    dsimp only
    rw [h, g, List.take_of_length_le (Nat.le_refl _), List.drop_of_length_le (by omega), List.append_nil, hcut]
  refine ⟨fun r h => ?_, fun h => ?_, fun g1 g2 => ?_⟩
  · cases hf : (readN data.length sched data [] data.length).fin with
    | ret m =>
      rw [hp m hf] at h
      simp only [ConfLoad.parsed.injEq] at h
      exact h.symm
    | err => unfold loadConf at h; simp [hf] at h
    | blocked => unfold loadConf at h; simp [hf] at h
  · cases hf : (readN data.length sched data [] data.length).fin with
    | ret m => rw [hp m hf] at h; simp at h
    | err => exact h4 hf
    | blocked => unfold loadConf at h; simp [hf] at h
  · exact hp _ (h5 g1 (by omega))

/-- C118. Nothing of a file after a NUL byte is used, and nothing is said about it: the configuration, with its errors, is that of the file cut there. -/
theorem C118_nul (env : CEnv) (s1 s2 : List Sys) (a b m1 m2 : List UInt8) (c : SConf) (r1 r2 : Option SConf) (h1 : m1.length = (a ++ 0 :: b).length) (h2 : m2.length = a.length)
    (g1 : loadConf env (a ++ 0 :: b).length s1 (a ++ 0 :: b) m1 c = .parsed r1) (g2 : loadConf env a.length s2 a m2 c = .parsed r2) : r1 = r2 := by
  rw [(C118_file_partial env s1 _ m1 c h1).1 r1 g1, (C118_file_partial env s2 _ m2 c h2).1 r2 g2]
  congr 1
  induction a with
  | nil => rfl
  | cons x a ih =>
    by_cases hx : x = 0
    · subst hx; rfl
    · rw [List.cons_append, List.takeWhile_cons_of_pos (by simpa using hx), List.takeWhile_cons_of_pos (by simpa using hx)]
      congr 1
      have key : ∀ l : List UInt8, (l ++ 0 :: b).takeWhile (fun x => decide (x ≠ 0)) = l.takeWhile (fun x => decide (x ≠ 0)) := by
        intro l
        induction l with
        | nil => rfl
        | cons y l ih2 =>
          by_cases hy : y = 0
          · subst hy; rfl
          · rw [List.cons_append, List.takeWhile_cons_of_pos (by simpa using hy), List.takeWhile_cons_of_pos (by simpa using hy), ih2]
      exact key a

/-- C118. Of a file that has grown since its length was asked for, only the first part is used, even if that ends in the middle of a word. -/
theorem C118_grown (env : CEnv) (size : Nat) (sched : List Sys) (data mem : List UInt8) (c : SConf) (hs : size ≤ data.length) (hm : mem.length = size) (r : Option SConf)
    (h : loadConf env size sched data mem c = .parsed r) : r = processConfig env (data.take size) c := by
  obtain ⟨_, _, h3, _, _⟩ := C25_read size sched data
  unfold loadConf at h
  dsimp only at h
  split at h
  · simp at h
  · simp at h
  · rename_i m hf
    obtain ⟨_, g⟩ := h3 m hf
    rw [g, List.drop_of_length_le (by rw [List.length_take]; omega), List.append_nil] at h
    simpa using h.symm

/-- C118 is false of anything whose length is given as 0, such as a pipe: whatever is to be read from it, the daemon reads none of it and goes on as with an empty file (and then ends because there are no consoles, src/server.c:118). -/
theorem C118_pipe (env : CEnv) (sched : List Sys) (data mem : List UInt8) (c : SConf) (hm : mem.length = 0) :
    loadConf env 0 sched data mem c = .parsed (some (defaultPort c)) := by
  have e : readN 0 sched data [] 0 = { fin := .ret 0, stored := [], rest := data } := by
    cases sched with
    | nil => rfl
    | cons x s => cases x <;> rfl
  have hl : lexAll (serverConfStrs env.withIpmi) 1 (lexCreate [0]) = some [(0, [], 1)] := by
    cases env.withIpmi <;> decide +kernel
  rw [List.length_eq_zero_iff] at hm
  subst hm
  unfold loadConf
  dsimp only
  rw [e]
  dsimp only
  have hp : processConfig env ([] ++ List.drop 0 []) c = some (defaultPort c) := by
    unfold processConfig
    show (lexAll (serverConfStrs env.withIpmi) 1 (lexCreate [0])).bind _ = _
    rw [hl]
    rfl
  exact congrArg ConfLoad.parsed hp

/-- C118 is false of a file that became shorter since its length was asked for: what is missing is taken from memory that was never written.  For every text, and every beginning of it
the file may still have, there are contents of the memory with which the daemon is configured by that text. -/
theorem C118_shrunk (env : CEnv) (text : List UInt8) (k : Nat) (c : SConf) : ∃ mem : List UInt8, mem.length = text.length ∧
    ∀ sched r, loadConf env text.length sched (text.take k) mem c = .parsed r → r = processConfig env text c := by
  refine ⟨text, rfl, fun sched r h => ?_⟩
  obtain ⟨_, _, h3, _, _⟩ := C25_read text.length sched (text.take k)
  unfold loadConf at h
  dsimp only at h
  split at h
  · simp at h
  · simp at h
  · rename_i m hf
    obtain ⟨_, g⟩ := h3 m hf
    rw [g, List.take_of_length_le (by rw [List.length_take]; omega), List.length_take] at h
    have : text.take k ++ text.drop (min k text.length) = text := by
      by_cases hk : k ≤ text.length
      · rw [Nat.min_eq_left hk, List.take_append_drop]
      · rw [List.take_of_length_le (by omega), List.drop_of_length_le (by omega), List.append_nil]
    rw [this] at h
    simpa using h.symm

/-- The port found in a file. -/
def portOf : ConfLoad → Option Int
  | .parsed (some c) => some c.port
  | _ => none

/-- A file that is read in three parts with an interruption; one that has grown; a pipe; a NUL byte; and one that was emptied while the memory has something else. -/
example : portOf (loadConf envDemo 17 [.upto 4, .intr, .upto 2, .upto 60] (bs "SERVER port=1234\n") (List.replicate 17 7) confDemo) = some 1234 ∧
    portOf (loadConf envDemo 14 [.upto 60] (bs "SERVER port=1234\n") (List.replicate 14 7) confDemo) = some 12 ∧
    portOf (loadConf envDemo 0 [.upto 60] (bs "SERVER port=1234\n") [] confDemo) = some 7890 ∧
    portOf (loadConf envDemo 18 [.upto 60] (0 :: bs "SERVER port=1234\n") (List.replicate 18 7) confDemo) = some 7890 ∧
    portOf (loadConf envDemo 15 [.upto 60] [] (bs "SERVER port=99\n") confDemo) = some 99 := by
  refine ⟨?_, ?_, ?_, ?_, ?_⟩ <;> decide +kernel

/-- The hypotheses of `C118_file_partial` are met. -/
example : Sys.fail ∉ List.replicate 20 (Sys.upto 0) ∧ (bs "SERVER port=1234\n").length < ((List.replicate 20 (Sys.upto 0)).filter (· ≠ .intr)).length := by decide

end Conman
