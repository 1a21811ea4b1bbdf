import Verif.Lemma.Loss

/-
C111: output that is lost is told.
`(LObj.create mem client).run ops` is the history `ops` of a new object: its state then, what its descriptor was given, and the messages.
-/
namespace Conman
open Spec

variable {mem : List UInt8} {client : Bool} {ops : List LossOp}

/-- C111. The accounts are right: whatever happens to an object (writes, flushes, end of file, shutdowns in any order), what was written to it is as much as was sent, waits,
and is lost according to the messages; when the object is destroyed, nothing else waits.  Missing: clients that suspend their output (`C111_suspended`) or withhold messages. -/
theorem C111_account_partial (hmem : mem.length = 16384) (ho : ∀ op ∈ ops, Open client op) :
    ∃ o out m q, (LObj.create mem client).run ops = some (o, out, m) ∧ o.ring.iov = some q ∧
      ((givenTo ops).length : Int) = out.length + q.length + lostBytes m ∧
      ((givenTo ops).length : Int) = out.length + lostBytes (m ++ o.destroy) := by
  obtain ⟨hok, hp⟩ := Ring.create_ok hmem
  obtain ⟨o, out, m, h1, h2, h3, -⟩ := lrun_spec ops (o := LObj.create mem client) hok (fun _ => ⟨rfl, rfl⟩) ho
  have hp' : (LObj.create mem client).ring.pend = [] := hp
  rw [hp'] at h3
  refine ⟨o, out, m, _, h1, Ring.iov_eq h2, by simpa using h3, ?_⟩
  have hl := h2.pend_len
  rw [lostBytes_append]
  unfold LObj.destroy
  by_cases hn : o.ring.numBuffered > 0
  · rw [if_pos hn]; simp only [lostBytes, List.map_cons, List.map_nil, LossMsg.lost, List.sum_cons, List.sum_nil, List.length_nil] at h3 ⊢; omega
  · rw [if_neg hn]; simp only [lostBytes, List.map_nil, List.sum_nil, List.length_nil] at h3 ⊢; omega

/-- C111. If there is no message, nothing is lost: what was written was sent, or waits, in order.  Missing: as above. -/
theorem C111_silence_partial (hmem : mem.length = 16384) (ho : ∀ op ∈ ops, Open client op) {o : LObj} {out : List UInt8}
    (hr : (LObj.create mem client).run ops = some (o, out, [])) : ∃ q, o.ring.iov = some q ∧ out ++ q = givenTo ops := by
  obtain ⟨hok, hp⟩ := Ring.create_ok hmem
  obtain ⟨o', out', m, h1, h2, -, h4⟩ := lrun_spec ops (o := LObj.create mem client) hok (fun _ => ⟨rfl, rfl⟩) ho
  rw [hr] at h1
  cases h1
  have hp' : (LObj.create mem client).ring.pend = [] := hp
  have := h4 rfl
  rw [hp'] at this
  exact ⟨_, Ring.iov_eq h2, this⟩

/-- C111. Every message about a write is exact: it comes if and only if the write makes bytes that wait be lost, and these are the oldest, as many as it says. -/
theorem C111_write (hmem : mem.length = 16384) (ho : ∀ op ∈ ops, Open client op) {o : LObj} {out : List UInt8} {m : List LossMsg}
    (hr : (LObj.create mem client).run ops = some (o, out, m)) (he : o.eof = false) {d : List UInt8} (hd : d.length < 16384) (i : Bool) :
    ∃ o' q q' lost, o.write d i = some (o', if lost = [] then [] else [.overwrote lost.length]) ∧ o.ring.iov = some q ∧ o'.ring.iov = some q' ∧ q ++ d = lost ++ q' := by
  obtain ⟨hok, hp⟩ := Ring.create_ok hmem
  have key : ∀ (ops : List LossOp) {o1 : LObj}, o1.ring.Ok → (o1.client = true → o1.quiet = false ∧ o1.suspend = false) → (∀ op ∈ ops, Open o1.client op) → ∀ {o out m},
      o1.run ops = some (o, out, m) → o.ring.Ok ∧ (o.client = true → o.quiet = false ∧ o.suspend = false) := by
    intro ops
    induction ops with
    | nil => intro o1 h hz _ o out m e; cases e; exact ⟨h, hz⟩
    | cons op ops ih =>
      intro o1 h hz ho o out m e
      obtain ⟨o2, out2, m2, a1, a2, a3, a4, -⟩ := lstep_spec h hz op (ho op (by simp))
      unfold LObj.run at e
      rw [a1, Option.bind_some] at e
      dsimp only at e
      cases e2 : o2.run ops with
      | none => rw [e2] at e; cases e
      | some t =>
        rw [e2] at e
        cases e
        exact ih a2 (fun hc => a4 (a3 ▸ hc)) (fun op' h' => a3 ▸ ho op' (by simp [h'])) (m := t.2.2) (out := t.2.1) e2
  obtain ⟨h, hz⟩ := key ops (o1 := LObj.create mem client) hok (fun _ => ⟨rfl, rfl⟩) ho hr
  have hq : (i && o.client && o.quiet) = false := by
    cases hc : o.client with
    | false => simp
    | true => rw [(hz hc).1]; simp
  have hs : (o.client && o.suspend) = false := by
    cases hc : o.client with
    | false => rfl
    | true => rw [(hz hc).2]; rfl
  obtain ⟨o', m', e1, e2, e3, e4, e5, e6, e7, e8⟩ := lwrite_spec h hd (i := i) he hq
  refine ⟨o', _, _, (o.ring.pend ++ d).take ((o.ring.pend ++ d).length - queueCap), ?_, Ring.iov_eq h, Ring.iov_eq e2, ?_⟩
  · have hm : m' = if (o.ring.pend ++ d).take ((o.ring.pend ++ d).length - queueCap) = [] then []
        else [.overwrote ((o.ring.pend ++ d).take ((o.ring.pend ++ d).length - queueCap)).length] := ?_
    · rw [e1, hm]
    rw [e8]
    by_cases hl : queueCap < o.ring.pend.length + d.length
    · have hne : (o.ring.pend ++ d).take ((o.ring.pend ++ d).length - queueCap) ≠ [] := by
        intro e
        have := congrArg List.length e
        rw [List.length_take, List.length_append] at this
        simp only [List.length_nil] at this
        omega
      rw [if_pos ⟨hl, hs⟩, if_neg hne]
      have hn : (o.ring.pend.length + d.length : Int) - queueCap = ((o.ring.pend ++ d).take ((o.ring.pend ++ d).length - queueCap)).length := by
        rw [List.length_take, List.length_append]
        omega
      rw [hn]
    · rw [if_neg (fun g => hl g.1), if_pos]
      rw [show (o.ring.pend ++ d).length - queueCap = 0 by rw [List.length_append]; omega, List.take_zero]
  · rw [e7]
    unfold lastN
    exact (List.take_append_drop _ _).symm

/-- C111, what fails: while a client has suspended its output nothing is told, whatever is written to it; what does not fit is lost. -/
theorem C111_suspended (hmem : mem.length = 16384) (ws : List (List UInt8)) (hw : ∀ d ∈ ws, d.length < 16384) :
    ∃ o, (LObj.create mem true).run (.suspend true :: ws.map (LossOp.write · false)) = some (o, [], []) ∧ o.ring.iov = some (lastN 16383 ws.flatten) := by
  have key : ∀ (ws : List (List UInt8)) {o : LObj}, (∀ d ∈ ws, d.length < 16384) → o.ring.Ok → o.client = true → o.eof = false → o.suspend = true →
      ∃ o', o.run (ws.map (LossOp.write · false)) = some (o', [], []) ∧ o'.ring.Ok ∧ o'.ring.pend = lastN queueCap (o.ring.pend ++ ws.flatten) := by
    intro ws
    induction ws with
    | nil =>
      intro o _ h _ _ _
      refine ⟨o, rfl, h, ?_⟩
      have hQ := queueCap_eq
      have hb := h.nb_lt
      have hp := h.pend_len
      rw [List.flatten_nil, List.append_nil, lastN_eq_self (by omega)]
    | cons d ws ih =>
      intro o hw h hc he hs
      obtain ⟨o1, m, e1, e2, e3, e4, e5, e6, e7, e8⟩ := lwrite_spec h (hw d (by simp)) (i := false) he rfl
      rw [if_neg (by rw [hc, hs]; simp)] at e8
      subst e8
      obtain ⟨o2, f1, f2, f3⟩ := ih (o := o1) (fun d' h' => hw d' (by simp [h'])) e2 (by rw [e3, hc]) (by rw [e4, he]) (by rw [e6, hs])
      refine ⟨o2, ?_, f2, ?_⟩
      · rw [List.map_cons]
        unfold LObj.run
        have : o.step (.write d false) = some (o1, [], []) := by rw [lstep_write, e1]; rfl
        rw [this, Option.bind_some]
        dsimp only
        rw [f1]; rfl
      · rw [f3, e7, List.flatten_cons, ← List.append_assoc]
        exact lastN_append_lastN _ _ _
  obtain ⟨hok, hp⟩ := Ring.create_ok hmem
  obtain ⟨o', h1, h2, h3⟩ := key ws (o := { LObj.create mem true with suspend := true }) hw hok rfl rfl rfl
  refine ⟨o', ?_, ?_⟩
  · show ((some ({ LObj.create mem true with suspend := true }, [], [])).bind _) = _
    rw [Option.bind_some]
    dsimp only
    rw [h1]; rfl
  · rw [Ring.iov_eq h2, h3]
    show some (lastN queueCap ((Ring.create mem).pend ++ _)) = _
    rw [hp, List.nil_append]; rfl

/-- A client is written to, 3 bytes are sent, it reaches end of file; another write, and what still waits at its shutdown, are told. -/
example : ((LObj.create (List.replicate 16384 0) true).run [.write [1, 2, 3, 4] true, .flush 3, .eof, .write [5, 6] false, .shutdown]).map (·.2) =
    some ([1, 2, 3], [.afterEof 2, .flushed 1]) ∧
    (∀ op ∈ [LossOp.write [1, 2, 3, 4] true, .flush 3, .eof, .write [5, 6] false, .shutdown], Open true op) := by
  refine ⟨by decide +kernel, ?_⟩
  simp [Open]

/-- A client that has suspended its output is written 20000 bytes. -/
example : ∀ d ∈ [List.replicate 10000 (1 : UInt8), List.replicate 10000 2], d.length < 16384 := by
  intro d hd
  rcases List.mem_cons.1 hd with e | e
  · rw [e, List.length_replicate]; omega
  · rw [List.mem_singleton.1 e, List.length_replicate]; omega

end Conman
