import Verif.Spec.Loss
import Verif.Lemma.WorldProp

/-
Lemmas for `Props/Loss.lean`.
-/
namespace Conman
open Spec

theorem lostBytes_append (a b : List LossMsg) : lostBytes (a ++ b) = lostBytes a + lostBytes b := by simp [lostBytes]

/-- The message about a write to the buffer. -/
theorem overwrote_spec {r : Ring} (h : r.Ok) {d : List UInt8} (hd : d.length < objBufSize) :
    (r.overwrote d = none ∧ r.pend.length + d.length ≤ queueCap) ∨ (r.overwrote d = some ((r.pend.length + d.length : Int) - queueCap) ∧ queueCap < r.pend.length + d.length) := by
  have hN := objBufSize_eq
  have hQ := queueCap_eq
  have hp := h.pend_len
  have hb := h.nb_lt
  unfold Ring.overwrote
  by_cases h0 : d.length = 0
  · rw [if_pos h0]; left; exact ⟨rfl, by omega⟩
  · rw [if_neg h0, if_neg (show ¬ d.length ≥ objBufSize by omega)]
    dsimp only
    by_cases hc : (d.length : Int) > (objBufSize : Int) - 1 - r.numBuffered
    · rw [if_pos hc]; right
      refine ⟨?_, by omega⟩
      congr 1; omega
    · rw [if_neg hc]; left; exact ⟨rfl, by omega⟩

/-- A write to an object that takes it. -/
theorem lwrite_spec {o : LObj} (h : o.ring.Ok) {d : List UInt8} (hd : d.length < objBufSize) {i : Bool} (he : o.eof = false) (hq : (i && o.client && o.quiet) = false) :
    ∃ o' m, o.write d i = some (o', m) ∧ o'.ring.Ok ∧ o'.client = o.client ∧ o'.eof = o.eof ∧ o'.quiet = o.quiet ∧ o'.suspend = o.suspend ∧
      o'.ring.pend = lastN queueCap (o.ring.pend ++ d) ∧
      m = if queueCap < o.ring.pend.length + d.length ∧ (o.client && o.suspend) = false then [.overwrote ((o.ring.pend.length + d.length : Int) - queueCap)] else [] := by
  have hQ := queueCap_eq
  have hb := h.nb_lt
  have hp := h.pend_len
  by_cases h0 : d.length = 0
  · refine ⟨o, [], by unfold LObj.write; rw [if_pos h0], h, rfl, rfl, rfl, rfl, ?_, ?_⟩
    · rw [List.length_eq_zero_iff.1 h0, List.append_nil, lastN_eq_self (by omega)]
    · rw [if_neg (by omega)]
  · obtain ⟨r', h1, h2, h3⟩ := Ring.write_pend h hd
    have hc1 : ¬ o.eof = true := by rw [he]; simp
    have hc2 : ¬ (i && o.client && o.quiet) = true := by rw [hq]; simp
    unfold LObj.write
    rw [if_neg h0, if_neg hc1, if_neg hc2, h1]
    rcases overwrote_spec h hd with ⟨e, hl⟩ | ⟨e, hl⟩
    · refine ⟨{ o with ring := r' }, [], by rw [e]; rfl, h2, rfl, rfl, rfl, rfl, h3, by rw [if_neg (by omega)]⟩
    · rw [e]
      cases hcs : (o.client && o.suspend) with
      | true =>
        refine ⟨{ o with ring := r' }, [], ?_, h2, rfl, rfl, rfl, rfl, h3, by rw [if_neg (by simp)]⟩
        have : (!o.client || !o.suspend) = false := by
          cases hx : o.client <;> cases hy : o.suspend <;> simp [hx, hy] at hcs ⊢
        dsimp only [Option.map_some]
        rw [this]; rfl
      | false =>
        refine ⟨{ o with ring := r' }, [.overwrote ((o.ring.pend.length + d.length : Int) - queueCap)], ?_, h2, rfl, rfl, rfl, rfl, h3, by rw [if_pos ⟨hl, rfl⟩]⟩
        have : (!o.client || !o.suspend) = true := by
          cases hx : o.client <;> cases hy : o.suspend <;> simp [hx, hy] at hcs ⊢
        dsimp only [Option.map_some]
        rw [this]; rfl

theorem lstep_write (o : LObj) (d : List UInt8) (i : Bool) : o.step (.write d i) = (o.write d i).map fun r => (r.1, [], r.2) := rfl

theorem lstep_flush (o : LObj) (n : Nat) : o.step (.flush n) = (o.ring.flush n).map fun r => ({ o with ring := r.1 }, r.2, []) := rfl

/-- One step of a history in which nothing is withheld. -/
theorem lstep_spec {o : LObj} (h : o.ring.Ok) (hz : o.client = true → o.quiet = false ∧ o.suspend = false) (op : LossOp) (hop : Open o.client op) :
    ∃ o' out m, o.step op = some (o', out, m) ∧ o'.ring.Ok ∧ o'.client = o.client ∧ (o.client = true → o'.quiet = false ∧ o'.suspend = false) ∧
      ((o.ring.pend.length : Int) + (givenTo [op]).length = out.length + o'.ring.pend.length + lostBytes m) ∧
      (m = [] → out ++ o'.ring.pend = o.ring.pend ++ givenTo [op]) := by
  have hQ := queueCap_eq
  have hb := h.nb_lt
  have hp := h.pend_len
  cases op with
  | write d i =>
    have hd : d.length < objBufSize := hop
    have hg : givenTo [.write d i] = d := by simp [givenTo]
    by_cases he : o.eof = true
    · by_cases h0 : d.length = 0
      · refine ⟨o, [], [], by rw [lstep_write]; unfold LObj.write; rw [if_pos h0]; rfl, h, rfl, hz, ?_, ?_⟩
        · rw [hg]; simp [h0, lostBytes]
        · intro _; rw [hg, List.length_eq_zero_iff.1 h0]; simp
      · refine ⟨o, [], [.afterEof d.length], by rw [lstep_write]; unfold LObj.write; rw [if_neg h0, if_pos he]; rfl, h, rfl, hz, ?_, fun e => (nomatch e)⟩
        rw [hg]; simp [lostBytes, LossMsg.lost]
    · have he' : o.eof = false := by simpa using he
      have hq : (i && o.client && o.quiet) = false := by
        cases hc : o.client with
        | false => simp
        | true => rw [(hz hc).1]; simp
      have hs : (o.client && o.suspend) = false := by
        cases hc : o.client with
        | false => rfl
        | true => rw [(hz hc).2]; rfl
      obtain ⟨o', m, e1, e2, e3, e4, e5, e6, e7, e8⟩ := lwrite_spec h hd (i := i) he' hq
      refine ⟨o', [], m, by rw [lstep_write, e1]; rfl, e2, e3, fun hc => by rw [e5, e6]; exact hz hc, ?_, ?_⟩
      · rw [hg, e7, length_lastN, List.length_append, e8]
        by_cases hl : queueCap < o.ring.pend.length + d.length
        · rw [if_pos ⟨hl, hs⟩]
          simp only [lostBytes, List.map_cons, List.map_nil, LossMsg.lost, List.length_nil, List.sum_cons, List.sum_nil]
          omega
        · rw [if_neg (fun g => hl g.1)]
          simp only [lostBytes, List.map_nil, List.length_nil, List.sum_nil]
          omega
      · intro em
        rw [hg, e7, List.nil_append]
        by_cases hl : queueCap < o.ring.pend.length + d.length
        · rw [e8, if_pos ⟨hl, hs⟩] at em; cases em
        · rw [lastN_eq_self (by rw [List.length_append]; omega)]
  | flush n =>
    obtain ⟨r', h1, h2, h3, -⟩ := Ring.flush_pend h n
    refine ⟨{ o with ring := r' }, o.ring.pend.take n, [], by rw [lstep_flush, h1]; rfl, h2, rfl, hz, ?_, ?_⟩
    · dsimp only
      rw [h3]
      simp only [givenTo, lostBytes, List.length_nil, List.map_nil, List.sum_nil, List.length_take, List.length_drop]
      omega
    · intro _; dsimp only; rw [h3]; simp [givenTo]
  | eof => exact ⟨_, [], [], rfl, h, rfl, hz, by simp [givenTo, lostBytes], fun _ => by simp [givenTo]⟩
  | suspend b => exact ⟨_, [], [], rfl, h, rfl, fun hc => ⟨(hz hc).1, hop hc⟩, by simp [givenTo, lostBytes], fun _ => by simp [givenTo]⟩
  | quiet b => exact ⟨_, [], [], rfl, h, rfl, fun hc => ⟨hop hc, (hz hc).2⟩, by simp [givenTo, lostBytes], fun _ => by simp [givenTo]⟩
  | shutdown =>
    obtain ⟨h1, h2⟩ := Ring.reset_ok h
    refine ⟨_, [], _, rfl, h1, rfl, hz, ?_, ?_⟩
    · show _ = ((([] : List UInt8).length : Int) + (o.ring.reset.pend.length : Int) + lostBytes o.shutdown.2)
      rw [h2]
      unfold LObj.shutdown
      dsimp only
      by_cases hn : o.ring.numBuffered > 0
      · rw [if_pos hn]; simp only [givenTo, lostBytes, List.map_cons, List.map_nil, LossMsg.lost, List.length_nil, List.sum_cons, List.sum_nil]; omega
      · rw [if_neg hn]; simp only [givenTo, lostBytes, List.map_nil, List.length_nil, List.sum_nil]; omega
    · intro em
      show [] ++ o.ring.reset.pend = _
      rw [h2]
      unfold LObj.shutdown at em
      dsimp only at em
      by_cases hn : o.ring.numBuffered > 0
      · rw [if_pos hn] at em; cases em
      · have : o.ring.pend = [] := List.length_eq_zero_iff.1 (by omega)
        rw [this]; rfl

theorem givenTo_cons (op : LossOp) (ops : List LossOp) : givenTo (op :: ops) = givenTo [op] ++ givenTo ops := by
  cases op <;> simp [givenTo]

theorem lrun_spec : ∀ (ops : List LossOp) {o : LObj}, o.ring.Ok → (o.client = true → o.quiet = false ∧ o.suspend = false) → (∀ op ∈ ops, Open o.client op) →
    ∃ o' out m, o.run ops = some (o', out, m) ∧ o'.ring.Ok ∧
      ((o.ring.pend.length : Int) + (givenTo ops).length = out.length + o'.ring.pend.length + lostBytes m) ∧
      (m = [] → out ++ o'.ring.pend = o.ring.pend ++ givenTo ops)
  | [], o, h, _, _ => ⟨o, [], [], rfl, h, by simp [givenTo, lostBytes], fun _ => by simp [givenTo]⟩
  | op :: ops, o, h, hz, ho => by
    obtain ⟨o1, out1, m1, a1, a2, a3, a4, a5, a6⟩ := lstep_spec h hz op (ho op (by simp))
    obtain ⟨o2, out2, m2, b1, b2, b5, b6⟩ := lrun_spec ops a2 (fun hc => a4 (a3 ▸ hc)) (fun op' h' => a3 ▸ ho op' (by simp [h']))
    refine ⟨o2, out1 ++ out2, m1 ++ m2, by unfold LObj.run; rw [a1, Option.bind_some]; dsimp only; rw [b1]; rfl, b2, ?_, ?_⟩
    · rw [givenTo_cons, lostBytes_append, List.length_append, List.length_append]
      omega
    · intro em
      obtain ⟨em1, em2⟩ := List.append_eq_nil_iff.1 em
      rw [givenTo_cons, List.append_assoc, b6 em2, ← List.append_assoc, a6 em1, List.append_assoc]

end Conman
