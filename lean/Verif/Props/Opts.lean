import Verif.Lemma.Opts

/-
Properties C43 (serial speed) and C44 (option strings).
-/
namespace Conman
open Spec (Toks lastSays logSep commaSep digit sameName SerForm TestSet speeds parityNo floorSpeed)

/-! ### C43 -/

/-- **C43.** A speed of at least 50 selects the highest supported speed that is not above it; a lower one is refused and nothing changes.  (`n` fits an
`int`; `sscanf` is undefined for others.) -/
theorem C43_floor (o : SerOpt) (n : Nat) (hn : n ≤ 2147483647) :
    (n < 50 → parseSerOpts o (some (dec n)) = some (o, -1)) ∧
    (50 ≤ n → ∃ v ∈ speeds, v ≤ n ∧ (∀ w ∈ speeds, w ≤ n → w ≤ v) ∧ parseSerOpts o (some (dec n)) = some ({ o with bps := v }, 0)) := by
  have hs : scanSer (dec n) = some { bps := some (n : Int) } := scanSer_text (.bps n) hn
  have hp : parseSerOpts o (some (dec n)) = some (match (floorSpeed n).map fun v => ({ o with bps := v } : SerOpt) with | none => (o, -1) | some o' => (o', 0)) := by
    unfold parseSerOpts
    dsimp only
    rw [if_neg (dec_spec n).1, hs]
    simp only [Option.map_some, setBps_nat]
    cases floorSpeed n <;> rfl
  constructor
  · intro h
    have : floorSpeed n = none := by
      unfold floorSpeed
      rw [List.getLast?_eq_none_iff, List.filter_eq_nil_iff]
      intro x hx
      have : ∀ x ∈ speeds, 50 ≤ x := by decide
      have := this x hx
      simp only [decide_eq_true_eq]; omega
    rw [hp, this]; rfl
  · intro h
    cases hf : floorSpeed n with
    | none =>
      unfold floorSpeed at hf
      rw [List.getLast?_eq_none_iff, List.filter_eq_nil_iff] at hf
      exact absurd (by simpa using h) (hf 50 (by decide))
    | some v =>
      have hv := List.mem_of_getLast? hf
      rw [List.mem_filter] at hv
      refine ⟨v, hv.1, by simpa using hv.2, ?_, by rw [hp, hf]; rfl⟩
      intro w hw hwn
      have hm : w ∈ speeds.filter (· ≤ n) := List.mem_filter.2 ⟨hw, by simpa using hwn⟩
      have hpw : (speeds.filter (· ≤ n)).Pairwise (· < ·) := List.Pairwise.filter _ (by decide)
      unfold floorSpeed at hf
      generalize speeds.filter (· ≤ n) = l at hf hm hpw
      obtain ⟨l', rfl⟩ : ∃ l', l = l' ++ [v] := List.getLast?_eq_some_iff.1 hf
      rcases List.mem_append.1 hm with hm | hm
      · exact Nat.le_of_lt ((List.pairwise_append.1 hpw).2.2 w hm v (by simp))
      · rw [List.mem_singleton] at hm; omega

/-- C43 on cases: 10000 selects 9600, 49 is refused, 999999 selects the highest. -/
example : parseSerOpts ⟨9600, 8, 0, 1⟩ (some (bs "10000")) = some (⟨9600, 8, 0, 1⟩, 0) ∧ parseSerOpts ⟨9600, 8, 0, 1⟩ (some (bs "49")) = some (⟨9600, 8, 0, 1⟩, -1) ∧
    parseSerOpts ⟨9600, 8, 0, 1⟩ (some (bs "999999")) = some (⟨460800, 8, 0, 1⟩, 0) := by decide +kernel

/-! ### C44: serial options -/

/-- **C44.** Serial options of the documented form are applied as a whole if every value is allowed, and otherwise refused without any change. -/
theorem C44_serial_partial (o : SerOpt) (f : SerForm) (h : f.Small) :
    parseSerOpts o (some f.text) = some (match f.apply o with | none => (o, -1) | some o' => (o', 0)) := by
  have hne : f.text ≠ [] := by
    cases f with
    | bps b => exact (dec_spec b).1
    | _ => simp [SerForm.text]
  unfold parseSerOpts
  dsimp only
  rw [if_neg hne, scanSer_text f h]
  cases f with
  | bps b => simp only [Option.map_some, setBps_nat, SerForm.apply, Spec.serBps]; cases floorSpeed b <;> rfl
  | bits b d =>
    simp only [Option.map_some, setBps_nat, setDatabits_nat, SerForm.apply, Spec.serBits, Spec.serBps]
    cases floorSpeed b <;> by_cases h1 : 5 ≤ d ∧ d ≤ 8 <;> simp [h1, setParity, setStopbits]
  | parity b d p =>
    simp only [Option.map_some, setBps_nat, setDatabits_nat, setParity_eq, SerForm.apply, Spec.serParity, Spec.serBits, Spec.serBps]
    cases floorSpeed b <;> by_cases h1 : 5 ≤ d ∧ d ≤ 8 <;> cases parityNo p <;> simp [h1, setStopbits]
  | full b d p s =>
    simp only [Option.map_some, setBps_nat, setDatabits_nat, setParity_eq, setStopbits_nat, SerForm.apply, Spec.serFull, Spec.serParity, Spec.serBits, Spec.serBps]
    cases floorSpeed b <;> by_cases h1 : 5 ≤ d ∧ d ≤ 8 <;> cases parityNo p <;> by_cases h2 : 1 ≤ s ∧ s ≤ 2 <;> simp [h1, h2]

example : SerForm.Small (.full 9600 8 0x6E 1) ∧ (SerForm.full 9600 8 0x6E 1).text = bs "9600,8n1" ∧
    (SerForm.full 9600 8 0x6E 1).apply ⟨50, 5, 2, 2⟩ = some ⟨9600, 8, 0, 1⟩ ∧ (SerForm.full 9600 9 0x6E 1).apply ⟨50, 5, 2, 2⟩ = none := by
  refine ⟨⟨by decide, by decide, by decide, by decide⟩, by decide +kernel, by decide +kernel, by decide +kernel⟩

theorem intToBps_mem (val : Int) : ∀ (t : List Nat) (b : Nat), intToBps val t b = b ∨ intToBps val t b ∈ t
  | [], b => Or.inl rfl
  | v :: t, b => by
    rw [intToBps]
    split
    · rcases intToBps_mem val t v with h | h
      · right; rw [h]; simp
      · right; simp [h]
    · exact Or.inl rfl

/-- **C44.** Whatever the string, serial options are either refused without any change, or accepted; settings a serial line can have stay such. -/
theorem C44_serial_all_or_none (o : SerOpt) (s : Option (List UInt8)) {o' : SerOpt} {r : Int} (h : parseSerOpts o s = some (o', r)) :
    (r = -1 ∧ o' = o) ∨ (r = 0 ∧ (Spec.SerOpt.Valid o → Spec.SerOpt.Valid o')) := by
  unfold parseSerOpts at h
  cases s with
  | none => simp only [Option.some.injEq, Prod.mk.injEq] at h; exact Or.inl ⟨h.2.symm, h.1.symm⟩
  | some s =>
    dsimp only at h
    split at h
    · simp only [Option.some.injEq, Prod.mk.injEq] at h; exact Or.inl ⟨h.2.symm, h.1.symm⟩
    · rw [Option.map_eq_some_iff] at h
      obtain ⟨q, _, h⟩ := h
      split at h
      · simp only [Prod.mk.injEq] at h; exact Or.inl ⟨h.2.symm, h.1.symm⟩
      · rename_i o4 hb
        simp only [Prod.mk.injEq] at h
        refine Or.inr ⟨h.2.symm, ?_⟩
        rw [← h.1]
        intro hv
        rw [Option.bind_eq_some_iff] at hb
        obtain ⟨o1, h1, hb⟩ := hb
        rw [Option.bind_eq_some_iff] at hb
        obtain ⟨o2, h2, hb⟩ := hb
        rw [Option.bind_eq_some_iff] at hb
        obtain ⟨o3, h3, h4⟩ := hb
        have v1 : Spec.SerOpt.Valid o1 := by
          unfold setBps at h1
          split at h1
          · simp only [Option.some.injEq] at h1; rw [← h1]; exact hv
          · dsimp only at h1
            split at h1
            · simp at h1
            · rename_i v _ hne
              simp only [Option.some.injEq] at h1
              rw [← h1]
              refine ⟨?_, hv.2⟩
              rcases intToBps_mem v bpsTable 0 with g | g
              · omega
              · exact g
        have v2 : Spec.SerOpt.Valid o2 := by
          unfold setDatabits at h2
          split at h2
          · simp only [Option.some.injEq] at h2; rw [← h2]; exact v1
          · split at h2
            · simp at h2
            · simp only [Option.some.injEq] at h2
              rw [← h2]
              exact ⟨v1.1, by dsimp only; omega, by dsimp only; omega, v1.2.2.2⟩
        have v3 : Spec.SerOpt.Valid o3 := by
          unfold setParity at h3
          obtain ⟨a, b, c, d, e, f⟩ := v2
          split at h3
          · simp only [Option.some.injEq] at h3; rw [← h3]; exact ⟨a, b, c, d, e, f⟩
          · split at h3
            · simp only [Option.some.injEq] at h3; rw [← h3]; exact ⟨a, b, c, by dsimp only; omega, by dsimp only; omega, f⟩
            · split at h3
              · simp only [Option.some.injEq] at h3; rw [← h3]; exact ⟨a, b, c, by dsimp only; omega, by dsimp only; omega, f⟩
              · split at h3
                · simp only [Option.some.injEq] at h3; rw [← h3]; exact ⟨a, b, c, by dsimp only; omega, by dsimp only; omega, f⟩
                · simp at h3
        unfold setStopbits at h4
        obtain ⟨a, b, c, d, e, f⟩ := v3
        split at h4
        · simp only [Option.some.injEq] at h4; rw [← h4]; exact ⟨a, b, c, d, e, f⟩
        · split at h4
          · simp at h4
          · simp only [Option.some.injEq] at h4
            rw [← h4]
            exact ⟨a, b, c, d, e, by dsimp only; omega, by dsimp only; omega⟩

example : parseSerOpts ⟨9600, 8, 0, 1⟩ (some (bs "19200,7e2")) = some (⟨19200, 7, 2, 2⟩, 0) ∧ Spec.SerOpt.Valid ⟨9600, 8, 0, 1⟩ := by
  refine ⟨by decide +kernel, by decide, by decide, by decide, by decide, by decide, by decide, by decide⟩

/-- **C44 is false for texts that are not options.**  Any text that does not begin with a number is accepted as serial options and has no effect; a text
after the last value is ignored. -/
theorem C44_serial_garbage (o : SerOpt) :
    (∀ s : List UInt8, s ≠ [] → (∀ c, (s.dropWhile isSpace).head? = some c → ¬ digit c ∧ c ≠ 0x2D ∧ c ≠ 0x2B) → parseSerOpts o (some s) = some (o, 0)) ∧
    parseSerOpts o (some (bs "9600 baud please")) = some ({ o with bps := 9600 }, 0) := by
  constructor
  · intro s hs h
    unfold parseSerOpts
    dsimp only
    rw [if_neg hs]
    have : scanSer s = some {} := by unfold scanSer; rw [scanD_noDigit h]
    rw [this]; rfl
  · have : scanSer (bs "9600 baud please") = some { bps := some 9600 } := by decide +kernel
    unfold parseSerOpts
    dsimp only
    rw [if_neg (by decide), this]; rfl

example : parseSerOpts ⟨9600, 8, 0, 1⟩ (some (bs "fast")) = some (⟨9600, 8, 0, 1⟩, 0) := by decide +kernel

/-! ### C44: log options -/

/-- **C44.** Log options of 1 to 1023 bytes are accepted, and each of the three features is set as the last word that names it says; others are refused
without any change. -/
theorem C44_log_partial (o : LogOpt) (s : List UInt8) (h0 : (0 : UInt8) ∉ s) (ts : List (List UInt8)) (ht : Toks logSep ts s) :
    parseLogOpts o (some s) =
      if s = [] ∨ s.length ≥ 1024 then (o, -1)
      else (⟨(lastSays (bs "lock") ts).getD o.lock, (lastSays (bs "sanitize") ts).getD o.sanitize, (lastSays (bs "timestamp") ts).getD o.timestamp⟩, 0) := by
  unfold parseLogOpts
  dsimp only
  by_cases h1 : s = []
  · rw [if_pos h1, if_pos (Or.inl h1)]
  · rw [if_neg h1]
    change (if s.length ≥ 1024 then _ else _) = _
    by_cases h2 : s.length ≥ 1024
    · rw [if_pos h2, if_pos (Or.inr h2)]
    · rw [if_neg h2, if_neg (by simp only [not_or]; exact ⟨h1, h2⟩), strtok_eq ht, logOpt_fold ts (toks_zero ht h0)]

/-- Every text consists of words, in one way. -/
theorem C44_words (sep : UInt8 → Bool) (s : List UInt8) : ∃ ts, Toks sep ts s ∧ ∀ ts', Toks sep ts' s → ts' = ts := by
  obtain ⟨ts, h⟩ := toks_exists sep s
  exact ⟨ts, h, fun ts' h' => (strtok_eq h').symm.trans (strtok_eq h)⟩

example : Toks logSep [bs "Lock", bs "nolock", bs "timestamp"] (bs "Lock, nolock;timestamp") ∧
    parseLogOpts ⟨true, false, false⟩ (some (bs "Lock, nolock;timestamp")) = (⟨false, false, true⟩, 0) := by
  refine ⟨?_, by decide +kernel⟩
  exact Toks.cons [] (bs "Lock") (bs ", nolock;timestamp") (by decide) (by decide) (by decide) (by decide)
    (Toks.cons (bs ", ") (bs "nolock") (bs ";timestamp") (by decide) (by decide) (by decide) (by decide)
      (Toks.cons (bs ";") (bs "timestamp") [] (by decide) (by decide) (by decide) (by simp) (Toks.nil [] (by simp))))

/-- **C44 is false for misspelt log options**: a word that names no feature is ignored and the string is accepted. -/
theorem C44_log_unknown (o : LogOpt) : parseLogOpts o (some (bs "sanitise timestmp")) = (o, 0) := by
  rw [C44_log_partial o (bs "sanitise timestmp") (by decide) [bs "sanitise", bs "timestmp"]
    (Toks.cons [] (bs "sanitise") (bs " timestmp") (by decide) (by decide) (by decide) (by decide)
      (Toks.cons (bs " ") (bs "timestmp") [] (by decide) (by decide) (by decide) (by simp) (Toks.nil [] (by simp))))]
  rw [if_neg (by decide)]
  have e1 : lastSays (bs "lock") [bs "sanitise", bs "timestmp"] = none := by decide
  have e2 : lastSays (bs "sanitize") [bs "sanitise", bs "timestmp"] = none := by decide
  have e3 : lastSays (bs "timestamp") [bs "sanitise", bs "timestmp"] = none := by decide
  rw [e1, e2, e3]; rfl

/-! ### C44: options of test consoles -/

/-- **C44.** A text of less than 1024 bytes whose words, separated by commas, are options of a test console is accepted, and the options are applied in
order (`errno` not being ERANGE before). -/
theorem C44_test_partial (o : TestOpt) (s : List UInt8) (ts : List (List UInt8)) (ht : Toks commaSep ts s) (l : List TestSet) (h : Spec.TestWords ts l)
    (hl : s.length < 1024) : parseTestOpts false o (some s) = (l.foldl (fun o t => t.apply o) o, 0, false) := by
  unfold parseTestOpts
  dsimp only
  rw [if_neg (by unfold maxLine; omega), strtok_eq ht, testOptLoop_good h]

example : Toks commaSep [bs "B:80", bs "p:0x96"] (bs "B:80,p:0x96") ∧ Spec.TestWords [bs "B:80", bs "p:0x96"] [TestSet.bytes 80, TestSet.prob 150] ∧
    parseTestOpts false ⟨1024, -1, -1, 100⟩ (some (bs "B:80,p:0x96")) = (⟨80, -1, -1, 100⟩, 0, false) := by
  refine ⟨?_, ?_, by decide +kernel⟩
  · exact Toks.cons [] (bs "B:80") (bs ",p:0x96") (by decide) (by decide) (by decide) (by decide)
      (Toks.cons (bs ",") (bs "p:0x96") [] (by decide) (by decide) (by decide) (by simp) (Toks.nil [] (by simp)))
  · refine Spec.TestWords.cons ⟨by decide, 0x42, bs "80", by decide, by decide, ?_⟩
      (Spec.TestWords.cons ⟨by decide, 0x70, bs "0x96", by decide, by decide, ?_⟩ Spec.TestWords.nil)
    · exact Spec.TestNum.num [] [] (bs "80") 80 (by simp) (Or.inl rfl) (Spec.CNum.dec (bs "80") (by decide) (by decide) (by decide))
    · exact Spec.TestNum.num [] [] (bs "0x96") 150 (by simp) (Or.inl rfl) (Spec.CNum.hex 0x78 (by decide) (bs "96") (by decide) (by decide))

/-- **C44.** Every other text is refused without any change. -/
theorem C44_test_refused (e : Bool) (o : TestOpt) (s : List UInt8) (ts : List (List UInt8)) (ht : Toks commaSep ts s)
    (h : s.length ≥ 1024 ∨ ¬ ∃ l, Spec.TestWords ts l) : (parseTestOpts e o (some s)).1 = o ∧ (parseTestOpts e o (some s)).2.1 = -1 := by
  unfold parseTestOpts
  dsimp only
  by_cases h1 : s.length ≥ maxLine
  · rw [if_pos h1]; exact ⟨rfl, rfl⟩
  · rw [if_neg h1, strtok_eq ht]
    cases g : (testOptLoop e o ts).1 with
    | none => exact ⟨rfl, rfl⟩
    | some o' =>
      rcases h with h | h
      · exact absurd h h1
      · exact absurd (testOptLoop_only ts e o (by rw [g]; simp)) h

example : parseTestOpts false ⟨1024, -1, -1, 100⟩ (some (bs "b:80,p:-1")) = (⟨1024, -1, -1, 100⟩, -1, false) := by decide +kernel

/-- **C44 is false if a number was out of range before**: `errno` is not cleared, so after ERANGE every option of a test console is refused, whatever it
is. -/
theorem C44_test_stale (o : TestOpt) (s : List UInt8) (w : List UInt8) (ts : List (List UInt8)) (ht : Toks commaSep (w :: ts) s) (hl : s.length < 1024) :
    parseTestOpts true o (some s) = (o, -1, true) := by
  unfold parseTestOpts
  dsimp only
  rw [if_neg (by unfold maxLine; omega), strtok_eq ht, testOptLoop, processTestOpt_stale]
  rfl

example : parseTestOpts true ⟨1024, -1, -1, 100⟩ (some (bs "b:80")) = (⟨1024, -1, -1, 100⟩, -1, true) := by decide +kernel

end Conman
