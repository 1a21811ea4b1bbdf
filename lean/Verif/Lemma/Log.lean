import Verif.Model.Log
import Verif.Spec.Log
import Verif.Lemma.Ring

namespace Conman
open Spec

/-- Pure form of the loop body: next state, clock readings, bytes emitted. -/
def logByteRef (o : LogOpts) (clk : Nat → List UInt8) (st : LineState) (k : Nat) (p : UInt8) :
    LineState × Nat × List UInt8 :=
  let stamp := if o.timestamp then clk k else []
  let k' := if o.timestamp then k + 1 else k
  if p = 0x0D then
    match st with
    | .data => (.cr, k, [])
    | .init => (.cr, k', stamp)
    | s => (s, k, [])
  else if p = 0x0A then
    if st = .init ∨ st = .lf then (.lf, k', stamp ++ [0x0D, 0x0A]) else (.lf, k, [0x0D, 0x0A])
  else if p = 0 ∧ (st = .cr ∨ st = .lf) then (st, k, [])
  else
    (.data, if st ≠ .data then k' else k,
      (if st = .cr then [0x0D, 0x0A] else []) ++ (if st ≠ .data then stamp else []) ++ logText o p)

def logRef (o : LogOpts) (clk : Nat → List UInt8) (st : LineState) (k : Nat) :
    List UInt8 → LineState × Nat × List UInt8
  | [] => (st, k, [])
  | p :: ps =>
    let r := logByteRef o clk st k p
    let r2 := logRef o clk r.1 r.2.1 ps
    (r2.1, r2.2.1, r.2.2 ++ r2.2.2)

theorem logText_length (o : LogOpts) (p : UInt8) : (logText o p).length ≤ 2 := by
  unfold logText
  split
  · simp only; split
    · simp
    · split
      · simp
      · split <;> simp
  · simp

theorem LogWr.puts_eq (w : LogWr) (bs : List UInt8) (h : w.buf.length + bs.length ≤ logBufCap) :
    w.puts bs = some { w with buf := w.buf ++ bs } := by
  induction bs generalizing w with
  | nil => simp [LogWr.puts]
  | cons b bs ih =>
    simp only [List.length_cons] at h
    have hp : w.put b = some { w with buf := w.buf ++ [b] } := by
      unfold LogWr.put; rw [if_pos (by omega)]
    simp only [LogWr.puts, hp, Option.bind_some]
    rw [ih _ (by simp; omega)]
    simp

theorem logBufCap_eq : logBufCap = 16383 := by
  unfold logBufCap; rw [objBufSize_eq]

theorem LogWr.stamp_eq (w : LogWr) (o : LogOpts) (clk : Nat → List UInt8)
    (hclk : ∀ k, (clk k).length = 20) (h : w.buf.length + 21 ≤ logBufCap) :
    w.stamp o clk = some { w with buf := w.buf ++ (if o.timestamp then clk w.k else []),
                                  k := if o.timestamp then w.k + 1 else w.k } := by
  unfold LogWr.stamp
  by_cases ht : o.timestamp = true
  · have := hclk w.k
    rw [if_pos ht, if_neg (by omega), if_neg (by omega)]; simp [ht]
  · simp [ht]

theorem LogWr.body_eq (w : LogWr) (o : LogOpts) (clk : Nat → List UInt8) (p : UInt8)
    (hclk : ∀ k, (clk k).length = 20) (h : w.buf.length + 25 ≤ logBufCap) :
    w.body o clk p = some { st := (logByteRef o clk w.st w.k p).1
                            buf := w.buf ++ (logByteRef o clk w.st w.k p).2.2
                            k := (logByteRef o clk w.st w.k p).2.1
                            out := w.out } := by
  have hst := fun (w : LogWr) (h : w.buf.length + 21 ≤ logBufCap) => LogWr.stamp_eq w o clk hclk h
  have hlen : (if o.timestamp then clk w.k else []).length ≤ 20 := by
    split
    · exact Nat.le_of_eq (hclk _)
    · simp
  have htl := logText_length o p
  have hst0 := hst w (by omega)
  obtain ⟨st, buf, k, out⟩ := w
  simp only at h hlen hst0
  unfold LogWr.body logByteRef
  split
  · cases st <;> simp [hst0]
  split
  · by_cases hs : st = .init ∨ st = .lf
    · rw [if_pos hs, if_pos hs, hst0]
      simp only [Option.bind_some]
      rw [LogWr.puts_eq _ _ (by simp only [List.length_append, List.length_cons, List.length_nil]; omega)]
      simp
    · rw [if_neg hs, if_neg hs]
      simp only [Option.bind_some]
      rw [LogWr.puts_eq _ _ (by simp only [List.length_cons, List.length_nil]; omega)]
      simp
  split
  · simp
  · by_cases hc : st = .cr
    · subst hc
      rw [if_pos rfl, LogWr.puts_eq _ _ (by simp only [List.length_cons, List.length_nil]; omega)]
      simp only [Option.bind_some]
      rw [if_pos (by simp), hst _ (by simp only [List.length_append, List.length_cons, List.length_nil]; omega)]
      simp only [Option.bind_some]
      rw [LogWr.puts_eq _ _ (by simp only [List.length_append, List.length_cons, List.length_nil]; omega)]
      simp
    · rw [if_neg hc]
      simp only [Option.bind_some]
      by_cases hd : st = .data
      · subst hd
        simp only [ne_eq, not_true, if_false, Option.bind_some]
        rw [LogWr.puts_eq _ _ (by simp only; omega)]
        simp
      · rw [if_pos hd, hst0]
        simp only [Option.bind_some]
        rw [LogWr.puts_eq _ _ (by simp only [List.length_append]; omega)]
        simp [hc, hd]

theorem logByteRef_length (o : LogOpts) (clk : Nat → List UInt8) (st k p)
    (hclk : ∀ k, (clk k).length = 20) : (logByteRef o clk st k p).2.2.length ≤ 24 := by
  have hlen : (if o.timestamp then clk k else []).length ≤ 20 := by
    split
    · exact Nat.le_of_eq (hclk _)
    · simp
  have htl := logText_length o p
  have hz : (if st = .cr then [(0x0D : UInt8), 0x0A] else []).length ≤ 2 := by split <;> simp
  have hy : (if st ≠ .data then (if o.timestamp then clk k else []) else []).length ≤ 20 := by
    split
    · exact hlen
    · simp
  unfold logByteRef
  simp only
  by_cases h1 : p = 0x0D
  · rw [if_pos h1]; cases st <;> simp only [List.length_nil] <;> omega
  rw [if_neg h1]
  by_cases h2 : p = 0x0A
  · rw [if_pos h2]
    by_cases h3 : st = .init ∨ st = .lf
    · rw [if_pos h3]; simp only [List.length_append, List.length_cons, List.length_nil]; omega
    · rw [if_neg h3]; simp
  rw [if_neg h2]
  by_cases h3 : p = 0 ∧ (st = .cr ∨ st = .lf)
  · rw [if_pos h3]; simp
  · rw [if_neg h3]; simp only [List.length_append]; omega

theorem LogWr.loop_eq (o : LogOpts) (clk : Nat → List UInt8) (hclk : ∀ k, (clk k).length = 20)
    (ps : List UInt8) : ∀ (w : LogWr), w.buf.length + 25 ≤ logBufCap →
    (∀ b ∈ w.out, b.length ≤ logBufCap) →
    ∃ w', w.loop o clk ps = some w' ∧ w'.st = (logRef o clk w.st w.k ps).1 ∧
      w'.k = (logRef o clk w.st w.k ps).2.1 ∧
      w'.out.flatten ++ w'.buf = w.out.flatten ++ w.buf ++ (logRef o clk w.st w.k ps).2.2 ∧
      w'.buf.length + 25 ≤ logBufCap ∧ (∀ b ∈ w'.out, b.length ≤ logBufCap) := by
  induction ps with
  | nil => intro w h ho; exact ⟨w, rfl, rfl, rfl, by simp [logRef], h, ho⟩
  | cons p ps ih =>
    intro w h ho
    have hb := LogWr.body_eq w o clk p hclk h
    have hl := logByteRef_length o clk w.st w.k p hclk
    simp only [LogWr.loop, hb, Option.bind_some, logRef]
    split
    · obtain ⟨w', h1, h2, h3, h4, h5, h6⟩ := ih (LogWr.flush
        { st := (logByteRef o clk w.st w.k p).1, buf := w.buf ++ (logByteRef o clk w.st w.k p).2.2,
          k := (logByteRef o clk w.st w.k p).2.1, out := w.out })
          (by simp only [LogWr.flush, List.length_nil, logBufCap_eq]; omega) (by
            intro b hb
            simp only [LogWr.flush, List.mem_append, List.mem_singleton] at hb
            rcases hb with hb | rfl
            · exact ho b hb
            · simp only [List.length_append]; omega)
      refine ⟨w', h1, h2, h3, ?_, h5, h6⟩
      rw [h4]; simp [LogWr.flush]
    · rename_i hc
      simp only [logMinBuf, List.length_append] at hc
      obtain ⟨w', h1, h2, h3, h4, h5, h6⟩ := ih
        { st := (logByteRef o clk w.st w.k p).1, buf := w.buf ++ (logByteRef o clk w.st w.k p).2.2,
          k := (logByteRef o clk w.st w.k p).2.1, out := w.out }
          (by simp only [List.length_append]; omega) ho
      refine ⟨w', h1, h2, h3, ?_, h5, h6⟩
      rw [h4]; simp

theorem writeLogData_eq (o : LogOpts) (clk : Nat → List UInt8) (hclk : ∀ k, (clk k).length = 20)
    (hp : o.sanitize = true ∨ o.timestamp = true) (st k) (src : List UInt8) :
    ∃ w, writeLogData o clk st k src = some w ∧ w.st = (logRef o clk st k src).1 ∧
      w.k = (logRef o clk st k src).2.1 ∧ w.out.flatten = (logRef o clk st k src).2.2 ∧
      (∀ b ∈ w.out, b.length ≤ logBufCap) := by
  obtain ⟨w', h1, h2, h3, h4, h5, h6⟩ := LogWr.loop_eq o clk hclk src { st := st, k := k }
    (by simp [logBufCap_eq]) (by simp)
  refine ⟨w'.flush, ?_, h2, h3, ?_, ?_⟩
  · unfold writeLogData
    rw [if_neg (by rcases hp with h | h <;> simp [h]), h1]; rfl
  · simpa [LogWr.flush] using h4
  · intro b hb
    simp only [LogWr.flush, List.mem_append, List.mem_singleton] at hb
    rcases hb with hb | rfl
    · exact h6 b hb
    · omega

theorem logRef_append (o : LogOpts) (clk : Nat → List UInt8) (st k) (a b : List UInt8) :
    logRef o clk st k (a ++ b) =
      ((logRef o clk (logRef o clk st k a).1 (logRef o clk st k a).2.1 b).1,
       (logRef o clk (logRef o clk st k a).1 (logRef o clk st k a).2.1 b).2.1,
       (logRef o clk st k a).2.2 ++ (logRef o clk (logRef o clk st k a).1 (logRef o clk st k a).2.1 b).2.2) := by
  induction a generalizing st k with
  | nil => simp [logRef]
  | cons c cs ih => simp [logRef, ih]

theorem logChunks_eq (o : LogOpts) (clk : Nat → List UInt8) (hclk : ∀ k, (clk k).length = 20)
    (hp : o.sanitize = true ∨ o.timestamp = true) (st k) (chunks : List (List UInt8)) :
    logChunks o clk st k chunks = some (logRef o clk st k chunks.flatten) := by
  induction chunks generalizing st k with
  | nil => rfl
  | cons c cs ih =>
    obtain ⟨w, h1, h2, h3, h4, -⟩ := writeLogData_eq o clk hclk hp st k c
    simp only [logChunks, h1, ih, h2, h3, h4, List.flatten_cons, logRef_append]

/-! ### layout -/

theorem layout_bol (enc : UInt8 → List UInt8) (ts : Bool) (clk) (k) (l : List (Option UInt8)) (h : l ≠ []) :
    layout enc ts clk true k l =
      (if ts then clk k else []) ++ layout enc ts clk false (if ts then k + 1 else k) l := by
  cases l with
  | nil => simp at h
  | cons x xs =>
    cases ts <;> cases x <;> simp [layout]

theorem layout_text (enc : UInt8 → List UInt8) (ts : Bool) (clk) (bol) (k) (b) (l : List (Option UInt8)) :
    layout enc ts clk bol k (some b :: l) =
      (if ts && bol then clk k else []) ++ enc b ++
        layout enc ts clk false (if ts && bol then k + 1 else k) l := by
  simp [layout]

theorem layout_eol (enc : UInt8 → List UInt8) (ts : Bool) (clk) (bol) (k) (l : List (Option UInt8)) :
    layout enc ts clk bol k (none :: l) =
      (if ts && bol then clk k else []) ++ [0x0D, 0x0A] ++
        layout enc ts clk true (if ts && bol then k + 1 else k) l := by
  simp [layout]

/-- Meaning of a line-end run that starts with a CR. -/
def crRun (run rest : List UInt8) : List (Option UInt8) :=
  if 0x0A ∈ run then List.replicate (run.count 0x0A) none
  else if rest = [] then [] else [none]

theorem normLines_cr (cs : List UInt8) :
    normLines (0x0D :: cs) = crRun (cs.takeWhile isRun) (cs.dropWhile isRun) ++ normLines (cs.dropWhile isRun) := by
  rw [normLines]
  simp [isEol, crRun]

theorem normLines_lf (cs : List UInt8) :
    normLines (0x0A :: cs) = none :: (List.replicate ((cs.takeWhile isRun).count 0x0A) none ++ normLines (cs.dropWhile isRun)) := by
  rw [normLines]
  simp [isEol, List.replicate_succ]

theorem normLines_text (c : UInt8) (cs : List UInt8) (h1 : c ≠ 0x0D) (h2 : c ≠ 0x0A) :
    normLines (c :: cs) = some c :: normLines cs := by
  rw [normLines]; simp [isEol, h1, h2]

theorem logRef_layout (o : LogOpts) (clk : Nat → List UInt8) (s : List UInt8) : ∀ k,
    (logRef o clk .data k s).2.2 = layout (logText o) o.timestamp clk false k (normLines s) ∧
    (logRef o clk .init k s).2.2 = layout (logText o) o.timestamp clk true k (normLines s) ++
      (if s ≠ [] ∧ normLines s = [] then (if o.timestamp then clk k else []) else []) ∧
    (logRef o clk .lf k s).2.2 = layout (logText o) o.timestamp clk true k
      (List.replicate ((s.takeWhile isRun).count 0x0A) none ++ normLines (s.dropWhile isRun)) ∧
    (logRef o clk .cr k s).2.2 = layout (logText o) o.timestamp clk false k
      (crRun (s.takeWhile isRun) (s.dropWhile isRun) ++ normLines (s.dropWhile isRun)) := by
  induction s with
  | nil => intro k; simp [logRef, normLines, layout, crRun]
  | cons c cs ih =>
    intro k
    by_cases hcr : c = 0x0D
    · subst hcr
      have hrun : isRun 0x0D = true := by decide
      refine ⟨?_, ?_, ?_, ?_⟩
      · rw [normLines_cr, ← (ih k).2.2.2]; simp [logRef, logByteRef]
      · rw [normLines_cr]
        simp only [logRef, logByteRef, if_true]
        rw [(ih _).2.2.2]
        by_cases hn : crRun (cs.takeWhile isRun) (cs.dropWhile isRun) ++ normLines (cs.dropWhile isRun) = []
        · rw [hn]; simp [layout]
        · rw [layout_bol _ _ _ _ _ hn]
          simp [hn]
      · simp only [List.takeWhile_cons, List.dropWhile_cons, hrun, if_true]
        rw [List.count_cons_of_ne (by decide), ← (ih k).2.2.1]; simp [logRef, logByteRef]
      · simp only [List.takeWhile_cons, List.dropWhile_cons, hrun, if_true]
        have : crRun (0x0D :: cs.takeWhile isRun) (cs.dropWhile isRun) = crRun (cs.takeWhile isRun) (cs.dropWhile isRun) := by
          simp [crRun]
        rw [this, ← (ih k).2.2.2]; simp [logRef, logByteRef]
    by_cases hlf : c = 0x0A
    · subst hlf
      have hrun : isRun 0x0A = true := by decide
      refine ⟨?_, ?_, ?_, ?_⟩
      · rw [normLines_lf, layout_eol, Bool.and_false]; simp [logRef, logByteRef, (ih _).2.2.1]
      · rw [normLines_lf, layout_eol, Bool.and_true]; simp [logRef, logByteRef, (ih _).2.2.1]
      · simp only [List.takeWhile_cons, List.dropWhile_cons, hrun, if_true, List.count_cons_self, List.replicate_succ, List.cons_append]
        rw [layout_eol, Bool.and_true]; simp [logRef, logByteRef, (ih _).2.2.1]
      · simp only [List.takeWhile_cons, List.dropWhile_cons, hrun, if_true]
        have : crRun (0x0A :: cs.takeWhile isRun) (cs.dropWhile isRun) = none :: List.replicate ((cs.takeWhile isRun).count 0x0A) none := by
          simp [crRun, List.replicate_succ]
        rw [this, List.cons_append, layout_eol, Bool.and_false]; simp [logRef, logByteRef, (ih _).2.2.1]
    have ht := normLines_text c cs hcr hlf
    by_cases hz : c = 0
    · subst hz
      have hrun : isRun 0 = true := by decide
      refine ⟨?_, ?_, ?_, ?_⟩
      · rw [ht, layout_text, Bool.and_false]; simp [logRef, logByteRef, (ih _).1]
      · rw [ht, layout_text, Bool.and_true]; simp [logRef, logByteRef, (ih _).1]
      · simp only [List.takeWhile_cons, List.dropWhile_cons, hrun, if_true]
        rw [List.count_cons_of_ne (by decide), ← (ih k).2.2.1]; simp [logRef, logByteRef]
      · simp only [List.takeWhile_cons, List.dropWhile_cons, hrun, if_true]
        have : crRun (0 :: cs.takeWhile isRun) (cs.dropWhile isRun) = crRun (cs.takeWhile isRun) (cs.dropWhile isRun) := by
          simp [crRun]
        rw [this, ← (ih k).2.2.2]; simp [logRef, logByteRef]
    · have hrun : isRun c = false := by simp [isRun, hcr, hlf, hz]
      refine ⟨?_, ?_, ?_, ?_⟩
      · rw [ht, layout_text, Bool.and_false]; simp [logRef, logByteRef, hcr, hlf, hz, (ih _).1]
      · rw [ht, layout_text, Bool.and_true]; simp [logRef, logByteRef, hcr, hlf, hz, (ih _).1]
      · simp only [List.takeWhile_cons, List.dropWhile_cons, hrun]
        simp only [Bool.false_eq_true, if_false, List.count_nil, List.replicate_zero, List.nil_append]
        rw [ht, layout_text, Bool.and_true]; simp [logRef, logByteRef, hcr, hlf, hz, (ih _).1]
      · simp only [List.takeWhile_cons, List.dropWhile_cons, hrun]
        have : crRun [] (c :: cs) = [none] := by simp [crRun]
        simp only [Bool.false_eq_true, if_false]
        rw [this, List.singleton_append, layout_eol, Bool.and_false, ht, layout_text, Bool.and_true]
        simp [logRef, logByteRef, hcr, hlf, hz, (ih _).1]

/-! ### sanitising -/

theorem forall_uint8 {P : UInt8 → Prop} (h : ∀ n : Fin 256, P (UInt8.ofFin n)) (p : UInt8) : P p :=
  h p.toFin

theorem logText_eq (o : LogOpts) : logText o = if o.sanitize then sanByte else (fun b => [b]) := by
  obtain ⟨s, ts⟩ := o
  cases s
  · rfl
  · funext b
    revert b
    cases ts
    · apply forall_uint8; decide +kernel
    · apply forall_uint8; decide +kernel

theorem logText_print (p : UInt8) (ts : Bool) : ∀ b ∈ logText ⟨true, ts⟩ p, isPrint b = true := by
  cases ts
  · revert p; apply forall_uint8; decide +kernel
  · revert p; apply forall_uint8; decide +kernel

theorem sanByte_print : ∀ p, ∀ b ∈ sanByte p, isPrint b = true := by
  apply forall_uint8; decide +kernel

theorem logRef_alphabet (o : LogOpts) (ho : o.sanitize = true) (clk : Nat → List UInt8)
    (hclk : ∀ k, ∀ b ∈ clk k, isPrint b = true) (st k) (s : List UInt8) :
    ∀ b ∈ (logRef o clk st k s).2.2, isPrint b = true ∨ b = 0x0D ∨ b = 0x0A := by
  induction s generalizing st k with
  | nil => simp [logRef]
  | cons c cs ih =>
    intro b hb
    simp only [logRef, List.mem_append] at hb
    rcases hb with hb | hb
    · have hst : ∀ b ∈ (if o.timestamp then clk k else []), isPrint b = true := by
        intro b hb; split at hb
        · exact hclk _ b hb
        · simp at hb
      have htx : ∀ b ∈ logText o c, isPrint b = true := by
        obtain ⟨s, ts⟩ := o; simp only at ho; subst ho; exact logText_print c ts
      revert hb
      unfold logByteRef
      simp only
      by_cases h1 : c = 0x0D
      · rw [if_pos h1]
        cases st <;> intro hb
        · exact Or.inl (hst b hb)
        all_goals simp at hb
      rw [if_neg h1]
      by_cases h2 : c = 0x0A
      · rw [if_pos h2]
        by_cases h3 : st = .init ∨ st = .lf
        · rw [if_pos h3]; intro hb
          rcases List.mem_append.1 hb with hb | hb
          · exact Or.inl (hst b hb)
          · simpa using Or.inr hb
        · rw [if_neg h3]; intro hb; simpa using Or.inr hb
      rw [if_neg h2]
      by_cases h3 : c = 0 ∧ (st = .cr ∨ st = .lf)
      · rw [if_pos h3]; simp
      · rw [if_neg h3]; intro hb
        simp only [List.mem_append] at hb
        rcases hb with (hb | hb) | hb
        · split at hb
          · simpa using Or.inr hb
          · simp at hb
        · split at hb
          · exact Or.inl (hst b hb)
          · simp at hb
        · exact Or.inl (htx b hb)
    · exact ih _ _ b hb

theorem mem_normLines (s : List UInt8) : ∀ b, some b ∈ normLines s → b ≠ 0x0D ∧ b ≠ 0x0A ∧ b ∈ s := by
  induction s using normLines.induct with
  | case1 => simp [normLines]
  | case2 c cs hc rest ih =>
    intro b hb
    rw [normLines, if_pos hc] at hb
    simp only [List.mem_append] at hb
    rcases hb with hb | hb
    · exfalso
      revert hb
      split
      · simp
      · split <;> simp
    · obtain ⟨h1, h2, h3⟩ := ih b hb
      exact ⟨h1, h2, List.mem_cons_of_mem _ ((List.dropWhile_suffix _).subset h3)⟩
  | case3 c cs hc ih =>
    intro b hb
    rw [normLines, if_neg hc] at hb
    simp only [List.mem_cons, Option.some.injEq] at hb
    rcases hb with rfl | hb
    · simp only [isEol, Bool.or_eq_true, beq_iff_eq, not_or] at hc
      exact ⟨hc.1, hc.2, by simp⟩
    · obtain ⟨h1, h2, h3⟩ := ih b hb
      exact ⟨h1, h2, List.mem_cons_of_mem _ h3⟩

theorem crlfOk_append (a b : List UInt8) (ha : crlfOk a = true) : crlfOk (a ++ b) = crlfOk b := by
  induction a using crlfOk.induct with
  | case1 => rfl
  | case2 r ih => simp only [List.cons_append, crlfOk] at ha ⊢; exact ih ha
  | case3 c r hne ih =>
    rw [crlfOk] at ha
    · simp only [Bool.and_eq_true] at ha
      rw [List.cons_append, crlfOk, ih ha.2]
      · simp [ha.1]
      · rintro r' rfl h
        simp at ha
    · exact hne

theorem crlfOk_plain (a : List UInt8) (h : ∀ b ∈ a, b ≠ 0x0D ∧ b ≠ 0x0A) : crlfOk a = true := by
  induction a with
  | nil => rfl
  | cons c r ih =>
    have hc := h c (by simp)
    rw [crlfOk]
    · simp [hc, ih (fun b hb => h b (by simp [hb]))]
    · rintro r' rfl; simp at hc

theorem layout_crlf (enc : UInt8 → List UInt8) (ts : Bool) (clk : Nat → List UInt8)
    (hclk : ∀ k, ∀ b ∈ clk k, b ≠ 0x0D ∧ b ≠ 0x0A) (l : List (Option UInt8))
    (henc : ∀ c, some c ∈ l → ∀ b ∈ enc c, b ≠ 0x0D ∧ b ≠ 0x0A) (bol k) :
    crlfOk (layout enc ts clk bol k l) = true := by
  have hst : ∀ (p : Bool) k, crlfOk (if p then clk k else []) = true := by
    intro p k; cases p
    · rfl
    · exact crlfOk_plain _ (hclk k)
  induction l generalizing bol k with
  | nil => rfl
  | cons x xs ih =>
    have ih' := ih (fun c hc => henc c (by simp [hc]))
    cases x with
    | none =>
      rw [layout_eol, List.append_assoc, crlfOk_append _ _ (hst _ _)]
      simp [crlfOk, ih']
    | some c =>
      rw [layout_text, List.append_assoc, crlfOk_append _ _ (hst _ _),
        crlfOk_append _ _ (crlfOk_plain _ (henc c (by simp)))]
      exact ih' _ _

theorem layout_text_filter (enc : UInt8 → List UInt8) (clk : Nat → List UInt8) (l : List (Option UInt8))
    (henc : ∀ c, some c ∈ l → ∀ b ∈ enc c, isEol b = false) (bol k) :
    (layout enc false clk bol k l).filter (fun b => !isEol b) = (l.filterMap id).flatMap enc := by
  induction l generalizing bol k with
  | nil => rfl
  | cons x xs ih =>
    have ih' := ih (fun c hc => henc c (by simp [hc]))
    cases x with
    | none => 
      have h13 : isEol 13 = true := by decide
      have h10 : isEol 10 = true := by decide
      rw [layout_eol]; simp [ih', h13, h10]
    | some c =>
      rw [layout_text]
      have : (enc c).filter (fun b => !isEol b) = enc c := by
        rw [List.filter_eq_self]; intro b hb; simp [henc c (by simp) b hb]
      simp [ih', this]

theorem unsan_step : ∀ c : UInt8, (∀ rest, unsanitize (sanByte c ++ rest) = c :: unsanitize rest) ∨
    (c = 0x5E ∨ c = 0x7E ∨ c = 0x60) := by
  intro c
  by_cases hm : c = 0x5E ∨ c = 0x7E ∨ c = 0x60
  · exact Or.inr hm
  left
  intro rest
  have key : ∀ c : UInt8, (c ≠ 0x5E ∧ c ≠ 0x7E ∧ c ≠ 0x60) →
      (sanByte c = [c]) ∨
      (∃ x, sanByte c = [0x5E, x] ∧ c = if x = 0x3F then 0x7F else x - 0x40) ∨
      (∃ x, sanByte c = [0x7E, x] ∧ c = if x = 0x3F then 0xFF else x + 0x40) ∨
      (∃ x, sanByte c = [0x60, x] ∧ c = x + 0x80) := by
    intro c
    have h2 : ∀ c : UInt8, (c ≠ 0x5E ∧ c ≠ 0x7E ∧ c ≠ 0x60) →
      (sanByte c = [c]) ∨
      (sanByte c = [0x5E, (sanByte c).getD 1 0] ∧ c = if (sanByte c).getD 1 0 = 0x3F then 0x7F else (sanByte c).getD 1 0 - 0x40) ∨
      (sanByte c = [0x7E, (sanByte c).getD 1 0] ∧ c = if (sanByte c).getD 1 0 = 0x3F then 0xFF else (sanByte c).getD 1 0 + 0x40) ∨
      (sanByte c = [0x60, (sanByte c).getD 1 0] ∧ c = (sanByte c).getD 1 0 + 0x80) := by
      apply forall_uint8; decide +kernel
    intro h
    rcases h2 c h with h | h | h | h
    · exact Or.inl h
    · exact Or.inr (Or.inl ⟨_, h⟩)
    · exact Or.inr (Or.inr (Or.inl ⟨_, h⟩))
    · exact Or.inr (Or.inr (Or.inr ⟨_, h⟩))
  simp only [not_or] at hm
  rcases key c ⟨hm.1, hm.2.1, hm.2.2⟩ with h | ⟨x, h, hx⟩ | ⟨x, h, hx⟩ | ⟨x, h, hx⟩
  · rw [h]
    cases rest with
    | nil => rfl
    | cons r rs => simp [unsanitize, hm]
  all_goals
    rw [h]; simp [unsanitize]; rw [← hx]

theorem unsan_flatMap (t : List UInt8) (h : ∀ c ∈ t, c ≠ 0x5E ∧ c ≠ 0x7E ∧ c ≠ 0x60) :
    unsanitize (t.flatMap sanByte) = t := by
  induction t with
  | nil => rfl
  | cons c cs ih =>
    rw [List.flatMap_cons]
    rcases unsan_step c with hs | hs
    · rw [hs, ih (fun c hc => h c (by simp [hc]))]
    · have := h c (by simp); simp_all

theorem normLines_text_nulfree (s : List UInt8) (h : (0 : UInt8) ∉ s) :
    (normLines s).filterMap id = s.filter (fun b => !isEol b) := by
  induction s using normLines.induct with
  | case1 => simp [normLines]
  | case2 c cs hc rest ih =>
    rw [normLines, if_pos hc]
    simp only [List.mem_cons, not_or] at h
    have hpre : ∀ (x : List (Option UInt8)), (∀ y ∈ x, y = none) → x.filterMap id = [] := by
      intro x hx; rw [List.filterMap_eq_nil_iff]; intro a ha; simp [hx a ha]
    rw [List.filterMap_append, hpre, List.nil_append]
    · have hrest := ih (fun hm => h.2 ((List.dropWhile_suffix _).subset hm))
      show (normLines rest).filterMap id = _
      rw [hrest]
      have : cs = cs.takeWhile isRun ++ rest := (List.takeWhile_append_dropWhile).symm
      rw [List.filter_cons_of_neg (by simp [hc])]
      conv => rhs; rw [this, List.filter_append]
      have : (cs.takeWhile isRun).filter (fun b => !isEol b) = [] := by
        rw [List.filter_eq_nil_iff]
        intro a ha
        have h1 : isRun a = true := by
          have := List.all_takeWhile (l := cs) (p := isRun)
          rw [List.all_eq_true] at this; exact this a ha
        have h2 : a ≠ 0 := by
          rintro rfl; exact h.2 ((List.takeWhile_prefix _).subset ha)
        have h3 : a = 13 ∨ a = 10 := by simpa [isRun, h2] using h1
        rcases h3 with rfl | rfl <;> decide
      rw [this, List.nil_append]
    · intro y hy
      split at hy
      · exact List.eq_of_mem_replicate hy
      · split at hy
        · simp at hy
        · simpa using hy
  | case3 c cs hc ih =>
    rw [normLines, if_neg hc]
    simp only [List.mem_cons, not_or] at h
    rw [List.filter_cons_of_pos (by simpa using hc)]
    simp [ih h.2]

end Conman
