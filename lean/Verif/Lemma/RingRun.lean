import Verif.Lemma.Ring
import Verif.Model.Replay

namespace Conman
open Spec

theorem Ring.run_refines {r : Ring} (h : r.Ok) (ops : List RingOp)
    (hw : ∀ d, RingOp.write d ∈ ops → d.length < objBufSize) :
    ∃ r' outs, r.run ops = some (r', outs) ∧ r'.Ok ∧
      (r'.pend, outs) = qrun r.pend (ops.map RingOp.toQ) := by
  induction ops generalizing r with
  | nil => exact ⟨r, [], rfl, h, rfl⟩
  | cons op ops ih =>
    have hw' : ∀ d, RingOp.write d ∈ ops → d.length < objBufSize :=
      fun d hd => hw d (List.mem_cons_of_mem _ hd)
    cases op with
    | write d =>
      obtain ⟨r1, h1, h2, h3⟩ := Ring.write_pend h (hw d List.mem_cons_self)
      obtain ⟨r2, outs, h4, h5, h6⟩ := ih h2 hw'
      refine ⟨r2, [] :: outs, ?_, h5, ?_⟩
      · simp [Ring.run, Ring.step, h1, h4]
      · simp only [List.map_cons, RingOp.toQ, qrun, qstep, ← h3, ← h6]
    | flush n =>
      obtain ⟨r1, h1, h2, h3, -⟩ := Ring.flush_pend h n
      obtain ⟨r2, outs, h4, h5, h6⟩ := ih h2 hw'
      refine ⟨r2, r.pend.take n :: outs, ?_, h5, ?_⟩
      · simp [Ring.run, Ring.step, h1, h4]
      · simp only [List.map_cons, RingOp.toQ, qrun, qstep, ← h3, ← h6]
    | reset =>
      obtain ⟨h2, h3⟩ := Ring.reset_ok h
      obtain ⟨r2, outs, h4, h5, h6⟩ := ih h2 hw'
      refine ⟨r2, [] :: outs, ?_, h5, ?_⟩
      · simp [Ring.run, Ring.step, h4]
      · simp only [List.map_cons, RingOp.toQ, qrun, qstep, ← h3, ← h6]

theorem Ring.run_append (r : Ring) (a b : List RingOp) :
    r.run (a ++ b) = (r.run a).bind fun (r1, o1) => (r1.run b).map fun (r2, o2) => (r2, o1 ++ o2) := by
  induction a generalizing r with
  | nil => cases h : r.run b <;> simp [Ring.run, h]
  | cons op ops ih =>
    simp only [List.cons_append, Ring.run, ih]
    cases r.step op with
    | none => rfl
    | some x =>
      cases h : x.1.run ops with
      | none => simp [h]
      | some y =>
        cases h2 : y.1.run b <;> simp [h, h2]

theorem written_append (a b : List RingOp) : written (a ++ b) = written a ++ written b := by
  induction a with
  | nil => rfl
  | cons op ops ih => cases op <;> simp [written, ih]

theorem Ring.no_loss {r0 : Ring} (h0 : r0.Ok) (hp0 : r0.pend = [])
    (ops : List RingOp) (hnr : RingOp.reset ∉ ops)
    (hfit : ∀ ops1 d ops2, ops = ops1 ++ RingOp.write d :: ops2 →
      ∀ r1 outs1, r0.run ops1 = some (r1, outs1) →
        (written ops1).length + d.length ≤ outs1.flatten.length + 16383) :
    ∃ r outs, r0.run ops = some (r, outs) ∧ r.Ok ∧ outs.flatten ++ r.pend = written ops := by
  induction hn : ops.length generalizing ops with
  | zero =>
    have : ops = [] := by simpa using hn
    subst this
    exact ⟨r0, [], rfl, h0, by simp [written, hp0]⟩
  | succ n ih =>
    have hne : ops ≠ [] := by intro h; simp [h] at hn
    obtain ⟨ops', op, rfl⟩ : ∃ l x, ops = l ++ [x] :=
      ⟨ops.dropLast, ops.getLast hne, (List.dropLast_concat_getLast hne).symm⟩
    obtain ⟨r, outs, h1, h2, h3⟩ := ih ops' (fun h => hnr (by simp [h]))
      (fun a d b hab => hfit a d (b ++ [op]) (by simp [hab])) (by simpa using hn)
    rw [Ring.run_append, h1, written_append]
    cases op with
    | write d =>
      have hf := hfit ops' d [] (by simp) r outs h1
      have hl : outs.flatten.length + r.pend.length = (written ops').length := by
        rw [← List.length_append, h3]
      obtain ⟨r1, h4, h5, h6⟩ := Ring.write_pend h2 (d := d) (by rw [objBufSize_eq]; omega)
      refine ⟨r1, outs ++ [[]], by simp [Ring.run, Ring.step, h4], h5, ?_⟩
      rw [h6, lastN_eq_self (by simp [queueCap]; omega)]
      simp [written, ← h3]
    | flush n =>
      obtain ⟨r1, h4, h5, h6, -⟩ := Ring.flush_pend h2 n
      refine ⟨r1, outs ++ [r.pend.take n], by simp [Ring.run, Ring.step, h4], h5, ?_⟩
      rw [h6]
      simp [written, ← h3]
    | reset => exact absurd (by simp) hnr

/-! ### Log replay -/

/-- The data written to a log since it was created, in order, is in the ring. -/
structure Ring.Hist (r : Ring) (H : List UInt8) : Prop where
  ok : r.Ok
  suf : lastN (min H.length objBufSize) r.rot = lastN objBufSize H
  wrapIff : r.wrap = true ↔ objBufSize ≤ H.length
  inP : H.length < objBufSize → r.inP = H.length

theorem Ring.Hist.create {mem : List UInt8} (h : mem.length = objBufSize) :
    (Ring.create mem).Hist [] :=
  ⟨(Ring.create_ok h).1, by simp [lastN, Ring.rot, Ring.create], by simp [Ring.create, objBufSize],
   fun _ => rfl⟩

theorem Ring.Hist.write {r : Ring} {H : List UInt8} (h : r.Hist H) {d : List UInt8}
    (hd : d.length < objBufSize) : ∃ r', r.write d = some r' ∧ r'.Hist (H ++ d) := by
  by_cases h0 : d.length = 0
  · have : d = [] := by simpa using h0
    subst this
    exact ⟨r, by simp [Ring.write], by simpa using h⟩
  · obtain ⟨r', h1, h2, h3, h4, h5, h6⟩ := Ring.write_spec h.ok (d := d) (by omega) hd
    have hrl := h.ok.rot_len
    have hin := h.ok.inb
    refine ⟨r', h1, h2, ?_, ?_, ?_⟩
    · rw [h3, lastN_drop (by simp; omega), List.length_append]
      have := congrArg (lastN (objBufSize - d.length)) h.suf
      rw [lastN_lastN, lastN_lastN] at this
      rw [lastN_append_le (by omega), lastN_append_le (by omega)]
      rw [show min (H.length + d.length) objBufSize - d.length =
        min (objBufSize - d.length) (min H.length objBufSize) by omega, this]
      congr 2; omega
    · rw [h6]
      simp only [Bool.or_eq_true, decide_eq_true_eq, h.wrapIff, List.length_append]
      constructor
      · rintro (hh | hh)
        · omega
        · by_cases hc : H.length < objBufSize
          · rw [h.inP hc] at hh; omega
          · omega
      · intro hh
        by_cases hc : H.length < objBufSize
        · rw [h.inP hc]; omega
        · omega
    · intro hlt
      simp only [List.length_append] at hlt ⊢
      rw [h5, h.inP (by omega), if_pos (by omega)]

theorem Ring.Hist.flush {r : Ring} {H : List UInt8} (h : r.Hist H) (n : Nat) :
    ∃ r' o, r.flush n = some (r', o) ∧ r'.Hist H := by
  obtain ⟨r', h1, h2, -, h4, h5, h6⟩ := Ring.flush_pend h.ok n
  exact ⟨r', _, h1, h2, by rw [h4]; exact h.suf, by rw [h6]; exact h.wrapIff,
    by rw [h5]; exact h.inP⟩

theorem Ring.Hist.run {r : Ring} {H : List UInt8} (h : r.Hist H) (ops : List RingOp)
    (hw : ∀ d, RingOp.write d ∈ ops → d.length < objBufSize) (hnr : RingOp.reset ∉ ops) :
    ∃ r' outs, r.run ops = some (r', outs) ∧ r'.Hist (H ++ written ops) := by
  induction ops generalizing r H with
  | nil => exact ⟨r, [], rfl, by simpa [written] using h⟩
  | cons op ops ih =>
    have hw' : ∀ d, RingOp.write d ∈ ops → d.length < objBufSize :=
      fun d hd => hw d (List.mem_cons_of_mem _ hd)
    have hnr' : RingOp.reset ∉ ops := fun hh => hnr (List.mem_cons_of_mem _ hh)
    cases op with
    | write d =>
      obtain ⟨r1, h1, h2⟩ := h.write (hw d List.mem_cons_self)
      obtain ⟨r2, outs, h3, h4⟩ := ih h2 hw' hnr'
      exact ⟨r2, [] :: outs, by simp [Ring.run, Ring.step, h1, h3], by simpa [written] using h4⟩
    | flush n =>
      obtain ⟨r1, o, h1, h2⟩ := h.flush n
      obtain ⟨r2, outs, h3, h4⟩ := ih h2 hw' hnr'
      exact ⟨r2, o :: outs, by simp [Ring.run, Ring.step, h1, h3], by simpa [written] using h4⟩
    | reset => exact absurd List.mem_cons_self hnr

/-- Reading `n` bytes backwards from the input pointer. -/
theorem Ring.read_back {r : Ring} (h : r.Ok) {n : Nat} (hn : n ≤ objBufSize) :
    (if n ≤ r.inP then memread r.buf (r.inP - n) n
     else do
      let m := n - r.inP
      if m > objBufSize then none
      let a ← memread r.buf (objBufSize - m) m
      let b ← memread r.buf 0 (n - m)
      return a ++ b) = some (lastN n r.rot) := by
  have hl := h.len; have hi := h.inb; have hrl := h.rot_len
  by_cases hc : n ≤ r.inP
  · rw [if_pos hc, memread, if_pos (by omega), lastN, hrl, Ring.rot, List.drop_append,
      List.drop_eq_nil_of_le (as := r.buf.drop r.inP) (by simp; omega), List.nil_append,
      List.drop_take]
    congr 2
    · simp; omega
    · congr 1; simp; omega
  · rw [if_neg hc]
    simp only [memread, show ¬ n - r.inP > objBufSize by omega, if_false, hl,
      show objBufSize - (n - r.inP) + (n - r.inP) ≤ objBufSize by omega, if_true,
      show n - (n - r.inP) = r.inP by omega, Nat.zero_add, show r.inP ≤ objBufSize by omega,
      List.drop_zero, Option.bind_eq_bind, Option.bind_some, Option.pure_def]
    rw [lastN, hrl, Ring.rot, List.drop_append_of_le_length (by simp; omega), List.drop_drop,
      List.take_of_length_le (by simp; omega)]
    congr 3; omega

theorem Ring.Hist.replay {r : Ring} {H : List UInt8} (h : r.Hist H) (room : Nat) :
    r.replay room = some (lastN (min 4096 room) H) := by
  have hN := objBufSize_eq
  unfold Ring.replay
  have hn : ∀ n, n = (if (if (if r.wrap then objBufSize - 1 else r.inP) > 4096 then 4096
      else (if r.wrap then objBufSize - 1 else r.inP)) > room then room else
      (if (if r.wrap then objBufSize - 1 else r.inP) > 4096 then 4096
      else (if r.wrap then objBufSize - 1 else r.inP))) → n = min H.length (min 4096 room) := by
    intro n hn
    by_cases hw : r.wrap = true
    · have := h.wrapIff.1 hw
      simp only [hw, if_true] at hn
      repeat' split at hn
      all_goals omega
    · have hlt : H.length < objBufSize := by
        have := h.wrapIff; simp [hw] at this; omega
      have hin := h.inP hlt
      simp only [hw, hin] at hn
      simp only [Bool.false_eq_true, if_false] at hn
      repeat' split at hn
      all_goals omega
  have hn' := hn _ rfl
  simp only
  rw [hn', Ring.read_back h.ok (by omega)]
  have hs := congrArg (lastN (min H.length (min 4096 room))) h.suf
  rw [lastN_lastN, lastN_lastN] at hs
  rw [show min (min H.length (min 4096 room)) (min H.length objBufSize) =
    min H.length (min 4096 room) by omega] at hs
  rw [hs]
  simp only [lastN]
  congr 2; omega

end Conman
