import Verif.Lemma.TestCon

/-
Property C46 (test consoles).
-/
namespace Conman
open Spec (patternByte Gap Bursts)

/-- **C46.** The data of all reads of a test console, one after the other, are the bytes `!` to `~` again and again: none is skipped or repeated, whatever
the sizes of the reads and the random numbers. -/
theorem C46_pattern (o : TestOpt) (hb : 0 ≤ o.numBytes) (rs : List (Nat × Nat)) (l : List (List UInt8 × Int)) (h : testRun (createTest o) rs = some l) :
    (l.map (·.1)).flatten = (List.range (l.map (·.1)).flatten.length).map patternByte := by
  have := testRun_pattern rs (createTest o) l 0 h (by simp [createTest]) hb rfl
  simpa using this

/-- **C46.** The reads form bursts of exactly the configured size, with pauses in the configured interval between them. -/
theorem C46_bursts (o : TestOpt) (hb : 0 ≤ o.numBytes) (rs : List (Nat × Nat)) (l : List (List UInt8 × Int)) (h : testRun (createTest o) rs = some l) :
    Bursts o l := (testRun_bursts rs (createTest o) l h (by simp [createTest]) hb).1 rfl

/-- **C46.** The computations are defined if the shortest interval is not given, or the longest minus the shortest is below 2147483647 (the hypothesis
excludes, among the values that can be configured, only 0 and 2147483647). -/
theorem C46_defined_partial (o : TestOpt) (h : o.msecMin < 0 ∨ o.msecMax - o.msecMin < 2147483647) (rs : List (Nat × Nat)) : ∃ l, testRun (createTest o) rs = some l := by
  have := testRun_some rs (createTest o) (by show ¬ (0 ≤ o.msecMin ∧ o.msecMax - o.msecMin + 1 > 2147483647); omega)
  exact Option.isSome_iff_exists.1 this

/-- C46 on a case: 10000 bytes in two reads, the pause in [5, 9]. -/
example : ∃ b1 b2, testRun (createTest ⟨10000, 9, 5, 100⟩) [(7, 3), (99, 12)] = some [(b1, 0), (b2, 7)] ∧ b1.length = 8191 ∧ b2.length = 1809 := by
  refine ⟨(testFill 8191 0x20).1, (testFill 1809 (testFill 8191 0x20).2).1, ?_, testFill_length _ _, testFill_length _ _⟩
  have e1 : readTest (createTest ⟨10000, 9, 5, 100⟩) 7 3 = some (⟨⟨10000, 9, 5, 100⟩, 1809, (testFill 8191 0x20).2⟩, (testFill 8191 0x20).1, 0) := rfl
  have e2 : ∀ c, readTest ⟨⟨10000, 9, 5, 100⟩, 1809, c⟩ 99 12 = some (⟨⟨10000, 9, 5, 100⟩, 0, (testFill 1809 c).2⟩, (testFill 1809 c).1, 7) := fun c => by
    simp [readTest, testDelay]
  rw [testRun, e1, Option.bind_some, testRun]
  dsimp only
  rw [e2]
  rfl

example : (createTest ⟨1024, -1, -1, 100⟩).opts.numBytes ≥ 0 ∧ testRun (createTest ⟨3, 50, 20, 50⟩) [(10, 31), (60, 0), (149, 4)] =
    some [([0x21, 0x22, 0x23], 20), ([], 20), ([0x24, 0x25, 0x26], 24)] := by decide +kernel

/-- **C46, every pause can occur.** -/
theorem C46_gap_full (o : TestOpt) (h1 : 0 ≤ o.msecMin) (h2 : o.msecMin < o.msecMax) (h3 : o.msecMax - o.msecMin < 2147483647) (hp : 0 < o.probability)
    (hn : o.numBytes ≤ 8191) (d : Int) (hd : o.msecMin ≤ d ∧ d ≤ o.msecMax) : ∃ r2 b, testRun (createTest o) [(0, r2)] = some [(b, d)] := by
  refine ⟨(d - o.msecMin).toNat, (testFill o.numBytes.toNat 0x20).1, ?_⟩
  have hr : readTest (createTest o) 0 (d - o.msecMin).toNat =
      some (⟨o, 0, (testFill o.numBytes.toNat 0x20).2⟩, (testFill o.numBytes.toNat 0x20).1, d) := by
    unfold readTest
    have hm : (if o.numBytes < 8191 then o.numBytes else 8191) = o.numBytes := by split <;> omega
    simp only [createTest, show ((0 : Nat) : Int) % 100 = 0 from rfl, if_true, gt_iff_lt, Int.lt_irrefl, false_or, if_pos hp, hm, Int.sub_self]
    unfold testDelay
    dsimp only
    rw [if_neg (by omega), if_neg (by omega), if_neg (by omega), if_neg (by omega), Option.map_some, Int.toNat_of_nonneg (by omega),
      Int.emod_eq_of_lt (by omega) (by omega)]
    simp only [Option.some.injEq, Prod.mk.injEq, true_and]; omega
  rw [testRun, hr]
  rfl

/-- **C46, finding.** With a shortest interval of 0 and a longest of 2147483647, both of which are accepted in the configuration, the computation of the
pause overflows. -/
theorem C46_interval_overflow (n : Int) (p : Int) (hp : 0 < p) (hn : n ≤ 8191) (rs : List (Nat × Nat)) (r2 : Nat) :
    testRun (createTest ⟨n, 2147483647, 0, p⟩) ((0, r2) :: rs) = none := by
  have hr : readTest (createTest ⟨n, 2147483647, 0, p⟩) 0 r2 = none := by
    unfold readTest
    have hm : (if n < 8191 then n else 8191) = n := by split <;> omega
    simp only [createTest, show ((0 : Nat) : Int) % 100 = 0 from rfl, if_true, gt_iff_lt, Int.lt_irrefl, false_or, if_pos hp, hm, Int.sub_self]
    rfl
  rw [testRun, hr]
  rfl

end Conman
