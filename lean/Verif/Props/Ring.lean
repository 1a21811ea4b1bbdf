import Verif.Lemma.RingRun
import Verif.Model.World

/-
C01-C04: the output buffer of an object.
-/
namespace Conman
open Spec

/-- C01. For every history of writes (each shorter than the buffer), flushes
and shutdowns on a fresh buffer: no access leaves the buffer, every flush hands
the descriptor exactly what the bounded queue would hand out, and what the next
`writev` would be given is exactly the content of that queue. -/
theorem C01_buffer_refines_queue (mem : List UInt8) (hmem : mem.length = 16384)
    (ops : List RingOp) (hw : ∀ d, RingOp.write d ∈ ops → d.length < 16384) :
    ∃ r outs, (Ring.create mem).run ops = some (r, outs) ∧
      outs = (qrun [] (ops.map RingOp.toQ)).2 ∧
      r.iov = some (qrun [] (ops.map RingOp.toQ)).1 := by
  obtain ⟨hok, hp⟩ := Ring.create_ok hmem
  obtain ⟨r, outs, h1, h2, h3⟩ := Ring.run_refines hok ops hw
  rw [hp] at h3
  refine ⟨r, outs, h1, ?_, ?_⟩
  · rw [← h3]
  · rw [Ring.iov_eq h2, ← h3]

/-- The hypotheses of C01 are satisfiable with data that wraps. -/
example : ∃ (mem : List UInt8) (ops : List RingOp), mem.length = 16384 ∧
    (∀ d, RingOp.write d ∈ ops → d.length < 16384) ∧
    ops = [.write (List.replicate 16000 1), .flush 9000, .write (List.replicate 9000 2)] := by
  refine ⟨List.replicate 16384 0, _, List.length_replicate, ?_, rfl⟩
  intro d hd
  simp only [List.mem_cons, RingOp.write.injEq, List.not_mem_nil, or_false, reduceCtorEq,
    false_or] at hd
  rcases hd with rfl | rfl <;> rw [List.length_replicate] <;> omega

/-- A write of at least `OBJ_BUF_SIZE` bytes acts as the write of its *first*
16383 bytes: the newest bytes of an over-long write are the ones dropped.
(No caller in the daemon passes more than 16383 bytes.) -/
theorem C01_long_write (r : Ring) (d : List UInt8) (h : 16384 ≤ d.length) :
    r.write d = r.write (d.take 16383) := by
  have h16 : (16383 : Nat) = objBufSize - 1 := rfl
  have h17 : objBufSize ≤ d.length := h
  have hN := objBufSize_eq
  rw [h16]
  have h1 : (d.take (objBufSize - 1)).length = objBufSize - 1 := by
    simp only [List.length_take]; omega
  unfold Ring.write
  simp only [h1, show d.length ≥ objBufSize from h17, if_true,
    show ¬ d.length = 0 by omega, if_false, show ¬ objBufSize - 1 = 0 by omega,
    show ¬ objBufSize - 1 ≥ objBufSize by omega]

/-- C01. The waiting bytes `pend` of an object in `Model/World.lean` are the circular buffer: after any history, a write of any data to the buffer,
a flush and a shutdown do to its content what `enq`, taking from the front and emptying do to `pend`. -/
theorem C01_world_buffer (mem : List UInt8) (hmem : mem.length = 16384) (ops : List RingOp) :
    ∃ r outs q, (Ring.create mem).run ops = some (r, outs) ∧ r.iov = some q ∧
      (∀ d, ∃ r', r.write d = some r' ∧ r'.iov = some (enq q d)) ∧
      (∀ n, ∃ r', r.flush n = some (r', q.take n) ∧ r'.iov = some (q.drop n)) ∧ r.reset.iov = some [] := by
  have hN := objBufSize_eq
  have wr : ∀ r : Ring, r.Ok → ∀ d, ∃ r', r.write d = some r' ∧ r'.Ok ∧ r'.pend = enq r.pend d := by
    intro r h d
    by_cases hd : d.length < objBufSize
    · obtain ⟨r', h1, h2, h3⟩ := Ring.write_pend h hd
      refine ⟨r', h1, h2, ?_⟩
      unfold enq
      have : ¬ d.length ≥ objBufSize := by omega
      rw [if_neg this]; exact h3
    · obtain ⟨r', h1, h2, h3⟩ := Ring.write_pend h (d := d.take 16383) (by rw [List.length_take, hN]; omega)
      refine ⟨r', by rw [C01_long_write r d (by omega)]; exact h1, h2, ?_⟩
      unfold enq
      have : d.length ≥ objBufSize := by omega
      rw [if_pos this]; exact h3
  suffices H : ∀ (ops : List RingOp) (r : Ring), r.Ok → ∃ r' outs, r.run ops = some (r', outs) ∧ r'.Ok by
    obtain ⟨r, outs, h1, h2⟩ := H ops _ (Ring.create_ok hmem).1
    refine ⟨r, outs, r.pend, h1, Ring.iov_eq h2, fun d => ?_, fun n => ?_, ?_⟩
    · obtain ⟨r', a, b, c⟩ := wr r h2 d
      exact ⟨r', a, by rw [Ring.iov_eq b, c]⟩
    · obtain ⟨r', a, b, c, _⟩ := Ring.flush_pend h2 n
      exact ⟨r', a, by rw [Ring.iov_eq b, c]⟩
    · rw [Ring.iov_eq (Ring.reset_ok h2).1, (Ring.reset_ok h2).2]
  intro ops
  induction ops with
  | nil => intro r h; exact ⟨r, [], rfl, h⟩
  | cons op ops ih =>
    intro r h
    obtain ⟨r1, o, h1, h2⟩ : ∃ r1 o, r.step op = some (r1, o) ∧ r1.Ok := by
      cases op with
      | write d => obtain ⟨r', a, b, _⟩ := wr r h d; exact ⟨r', [], by simp [Ring.step, a], b⟩
      | flush n => obtain ⟨r', a, b, _⟩ := Ring.flush_pend h n; exact ⟨r', _, a, b⟩
      | reset => exact ⟨_, _, rfl, (Ring.reset_ok h).1⟩
    obtain ⟨r2, os, h3, h4⟩ := ih r1 h2
    exact ⟨r2, o :: os, by simp [Ring.run, h1, h3], h4⟩

/-- C03. Whatever the history - including over-long writes - no operation
accesses memory outside the buffer, and afterwards both pointers are inside. -/
theorem C03_buffer_memory_safe (mem : List UInt8) (hmem : mem.length = 16384)
    (ops : List RingOp) :
    ∃ r outs, (Ring.create mem).run ops = some (r, outs) ∧
      r.buf.length = 16384 ∧ r.inP < 16384 ∧ r.outP < 16384 ∧ r.iov.isSome := by
  suffices H : ∀ r : Ring, r.Ok → ∃ r' outs, r.run ops = some (r', outs) ∧ r'.Ok by
    obtain ⟨r, outs, h1, h2⟩ := H _ (Ring.create_ok hmem).1
    exact ⟨r, outs, h1, h2.len, h2.inb, h2.outb, by rw [Ring.iov_eq h2]; rfl⟩
  intro r h
  induction ops generalizing r with
  | nil => exact ⟨r, [], rfl, h⟩
  | cons op ops ih =>
    have hstep : ∃ r1 o, r.step op = some (r1, o) ∧ r1.Ok := by
      cases op with
      | write d =>
        by_cases hd : d.length < 16384
        · obtain ⟨r1, h1, h2, -⟩ := Ring.write_pend h hd
          exact ⟨r1, [], by simp [Ring.step, h1], h2⟩
        · obtain ⟨r1, h1, h2, -⟩ := Ring.write_pend h (d := d.take 16383)
            (by simp only [List.length_take, objBufSize]; omega)
          exact ⟨r1, [], by simp [Ring.step, C01_long_write r d (by omega), h1], h2⟩
      | flush n =>
        obtain ⟨r1, h1, h2, -⟩ := Ring.flush_pend h n
        exact ⟨r1, _, h1, h2⟩
      | reset => exact ⟨_, _, rfl, (Ring.reset_ok h).1⟩
    obtain ⟨r1, o, h1, h2⟩ := hstep
    obtain ⟨r2, os, h3, h4⟩ := ih r1 h2
    exact ⟨r2, o :: os, by simp [Ring.run, h1, h3], h4⟩

example : ∃ (ops : List RingOp) , ops = [.write (List.replicate 20000 1), .flush 3, .reset] :=
  ⟨_, rfl⟩

/-- C02. If no write exceeds the space left - the data written so far minus the
data already sent plus the new data is at most 16383 bytes - then what was sent
followed by what is still waiting is exactly what was written. -/
theorem C02_no_loss_without_overflow (mem : List UInt8) (hmem : mem.length = 16384)
    (ops : List RingOp) (hnr : RingOp.reset ∉ ops)
    (hfit : ∀ ops1 d ops2, ops = ops1 ++ RingOp.write d :: ops2 →
      ∀ r1 outs1, (Ring.create mem).run ops1 = some (r1, outs1) →
        (written ops1).length + d.length ≤ outs1.flatten.length + 16383) :
    ∃ r outs wait, (Ring.create mem).run ops = some (r, outs) ∧ r.iov = some wait ∧
      outs.flatten ++ wait = written ops := by
  obtain ⟨hok, hp⟩ := Ring.create_ok hmem
  obtain ⟨r, outs, h1, h2, h3⟩ := Ring.no_loss hok hp ops hnr hfit
  exact ⟨r, outs, r.pend, h1, Ring.iov_eq h2, h3⟩

/-- The hypotheses of C02 are satisfiable by a non-trivial history. -/
example : ∃ ops : List RingOp, RingOp.reset ∉ ops ∧ (written ops).length = 4 ∧
    ∀ ops1 d ops2, ops = ops1 ++ RingOp.write d :: ops2 →
      ∀ r1 outs1, (Ring.create (List.replicate 16384 0)).run ops1 = some (r1, outs1) →
        (written ops1).length + d.length ≤ outs1.flatten.length + 16383 := by
  refine ⟨[.write [1, 2, 3], .flush 2, .write [4]], by simp, rfl, ?_⟩
  intro ops1 d ops2 h r1 outs1 _
  have hw : written [RingOp.write [1, 2, 3], .flush 2, .write [4]] = [1, 2, 3, 4] := rfl
  rw [h, written_append] at hw
  have := congrArg List.length hw
  simp [written] at this
  omega

/-- C04 (partial: histories in which the log was never shut down by a write
error). After any history of writes and flushes of the log, a replay request
sends the client exactly the begin message, the most recent min(4096, all)
bytes written to the log, and the end message, for every console name the
configuration can contain (at most 1023 bytes). -/
theorem C04_replay_partial (mem : List UInt8) (hmem : mem.length = 16384)
    (ops : List RingOp) (hw : ∀ d, RingOp.write d ∈ ops → d.length < 16384)
    (hnr : RingOp.reset ∉ ops) (name : List UInt8) (hname : name.length ≤ 1023) :
    ∃ r outs, (Ring.create mem).run ops = some (r, outs) ∧
      performLogReplay name (some r) =
        .wrote (bs "\r\n<ConMan> Begin log replay of console [" ++ name ++ bs "].\r\n" ++
          lastN 4096 (written ops) ++
          bs "\r\n<ConMan> End log replay of console [" ++ name ++ bs "].\r\n") := by
  obtain ⟨r, outs, h1, h2⟩ := (Ring.Hist.create hmem).run ops hw hnr
  refine ⟨r, outs, h1, ?_⟩
  rw [List.nil_append] at h2
  have hN := objBufSize_eq
  have hb : replayMsg (bs "Begin log replay of console") name [] =
      bs "\r\n<ConMan> Begin log replay of console [" ++ name ++ bs "].\r\n" := by
    simp [replayMsg, msgPrefix, msgSuffix, bs]
  have he : replayMsg (bs "End log replay of console") name [] =
      bs "\r\n<ConMan> End log replay of console [" ++ name ++ bs "].\r\n" := by
    simp [replayMsg, msgPrefix, msgSuffix, bs]
  have hbl : (bs "\r\n<ConMan> Begin log replay of console [" ++ name ++ bs "].\r\n").length =
      name.length + 44 := by
    simp only [List.length_append]
    rw [show (bs "\r\n<ConMan> Begin log replay of console [").length = 40 by decide,
      show (bs "].\r\n").length = 4 by decide]; omega
  have hel : (bs "\r\n<ConMan> End log replay of console [" ++ name ++ bs "].\r\n").length =
      name.length + 42 := by
    simp only [List.length_append]
    rw [show (bs "\r\n<ConMan> End log replay of console [").length = 38 by decide,
      show (bs "].\r\n").length = 4 by decide]; omega
  have hrl : (lastN 4096 (written ops)).length ≤ 4096 := by rw [length_lastN]; omega
  unfold performLogReplay
  simp only [hb, he, hbl, hel, h2.replay]
  rw [if_neg (by omega), if_neg (by omega)]
  rw [show min 4096 (((objBufSize - 1 : Nat) : Int) - (name.length + 44 : Nat) -
    ((name.length + 44 : Nat) - 2)).toNat = 4096 by omega]
  simp only [List.length_append] at hbl
  rw [if_neg (by omega), if_pos (by omega)]
  simp

/-- The hypotheses of C04 are satisfiable by a history longer than the buffer. -/
example : ∃ ops : List RingOp, (∀ d, RingOp.write d ∈ ops → d.length < 16384) ∧
    RingOp.reset ∉ ops ∧ (written ops).length = 20000 := by
  refine ⟨[.write (List.replicate 10000 1), .flush 5, .write (List.replicate 10000 2)], ?_, ?_, ?_⟩
  · intro d hd
    simp only [List.mem_cons, RingOp.write.injEq, List.not_mem_nil, or_false, reduceCtorEq,
      false_or] at hd
    rcases hd with rfl | rfl <;> rw [List.length_replicate] <;> omega
  · intro h
    simp only [List.mem_cons, List.not_mem_nil, or_false, reduceCtorEq] at h
  · simp only [written, List.length_append, List.length_replicate, List.length_nil]

/-- A console without a log: the client is told so. -/
theorem C04_replay_no_log (name : List UInt8) (hname : name.length ≤ 1023) :
    performLogReplay name none =
      .wrote (bs "\r\n<ConMan> Console [" ++ name ++
        bs "] is not being logged -- cannot replay.\r\n") := by
  have he : replayMsg (bs "Console") name (bs " is not being logged -- cannot replay") =
      bs "\r\n<ConMan> Console [" ++ name ++
        bs "] is not being logged -- cannot replay.\r\n" := by
    simp [replayMsg, msgPrefix, msgSuffix, bs]
  have hel : (bs "\r\n<ConMan> Console [" ++ name ++
        bs "] is not being logged -- cannot replay.\r\n").length = name.length + 61 := by
    simp only [List.length_append]
    rw [show (bs "\r\n<ConMan> Console [").length = 20 by decide,
      show (bs "] is not being logged -- cannot replay.\r\n").length = 41 by decide]; omega
  have hN := objBufSize_eq
  unfold performLogReplay
  simp only [he, hel]
  rw [if_neg (by omega)]

example : ∃ name : List UInt8, name = bs "node7" ∧ name.length ≤ 1023 := ⟨_, rfl, by decide⟩

/-- Finding (refutes the full C04). If a log whose buffer has wrapped is shut
down by a write error and later reopened, a replay after writing `d` (fewer
than 4096 bytes) still sends 4096 bytes of "log": the part before `d` was not
written since the log was reopened.  `shutdown_obj` does not reset
`gotBufWrap`. -/
theorem C04_replay_stale_after_shutdown (mem : List UInt8) (hmem : mem.length = 16384)
    (ops : List RingOp) (hw : ∀ d, RingOp.write d ∈ ops → d.length < 16384)
    (hnr : RingOp.reset ∉ ops) (hlong : 16384 ≤ (written ops).length)
    (d : List UInt8) (hd : d.length < 4096) :
    ∃ r outs w, (Ring.create mem).run (ops ++ [.reset, .write d]) = some (r, outs) ∧
      r.replay 4096 = some w ∧ w.length = 4096 ∧ w ≠ lastN 4096 d := by
  have hN := objBufSize_eq
  obtain ⟨r, outs, h1, h2⟩ := (Ring.Hist.create hmem).run ops hw hnr
  rw [List.nil_append] at h2
  have hwrap : r.reset.wrap = true := h2.wrapIff.2 hlong
  obtain ⟨r', h3, h4, h5⟩ : ∃ r', r.reset.write d = some r' ∧ r'.Ok ∧ r'.wrap = true := by
    by_cases h0 : d.length = 0
    · exact ⟨r.reset, by simp [Ring.write, h0], (Ring.reset_ok h2.ok).1, hwrap⟩
    · obtain ⟨r', a, b, -, -, -, c⟩ :=
        Ring.write_spec (Ring.reset_ok h2.ok).1 (d := d) (by omega) (by omega)
      exact ⟨r', a, b, by rw [c, hwrap]; rfl⟩
  refine ⟨r', outs ++ [[], []], lastN 4096 r'.rot, ?_, ?_, ?_, ?_⟩
  · rw [Ring.run_append, h1]
    simp [Ring.run, Ring.step, h3]
  · unfold Ring.replay
    simp only [h5, if_true, show objBufSize - 1 > 4096 by omega, Nat.lt_irrefl, gt_iff_lt, if_false]
    exact Ring.read_back h4 (by omega)
  · rw [length_lastN, h4.rot_len]; omega
  · intro h
    have := congrArg List.length h
    rw [length_lastN, length_lastN, h4.rot_len] at this
    omega

/-- The hypotheses of the finding are satisfiable. -/
example : ∃ ops : List RingOp, (∀ d, RingOp.write d ∈ ops → d.length < 16384) ∧
    RingOp.reset ∉ ops ∧ 16384 ≤ (written ops).length := by
  refine ⟨[.write (List.replicate 16383 1), .write [2]], ?_, ?_, ?_⟩
  · intro d hd
    simp only [List.mem_cons, RingOp.write.injEq, List.not_mem_nil, or_false] at hd
    rcases hd with rfl | rfl
    · rw [List.length_replicate]; omega
    · simp
  · intro h
    simp only [List.mem_cons, List.not_mem_nil, or_false, reduceCtorEq] at h
  · simp only [written, List.length_append, List.length_replicate, List.length_nil,
      List.length_cons]; omega

end Conman
