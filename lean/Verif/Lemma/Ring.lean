import Verif.Model.Ring
import Verif.Spec.Queue

namespace Conman
open Spec

theorem objBufSize_eq : objBufSize = 16384 := rfl
theorem queueCap_eq : queueCap = objBufSize - 1 := rfl

/-! ### lastN -/

theorem length_lastN (k : Nat) (l : List α) : (lastN k l).length = min k l.length := by
  simp [lastN]; omega

theorem lastN_eq_self {k : Nat} {l : List α} (h : l.length ≤ k) : lastN k l = l := by
  simp [lastN, Nat.sub_eq_zero_of_le h]

theorem lastN_lastN (j k : Nat) (l : List α) : lastN j (lastN k l) = lastN (min j k) l := by
  simp only [lastN, List.drop_drop, List.length_drop]
  by_cases h : k ≤ l.length
  · congr 1; omega
  · by_cases h2 : j ≤ l.length
    · congr 1; omega
    · congr 1; omega

theorem lastN_append_le {k : Nat} {a b : List α} (h : b.length ≤ k) :
    lastN k (a ++ b) = lastN (k - b.length) a ++ b := by
  simp only [lastN, List.length_append]
  rw [List.drop_append_of_le_length (by omega)]
  congr 2; omega

theorem lastN_append_ge {k : Nat} {a b : List α} (h : k ≤ b.length) :
    lastN k (a ++ b) = lastN k b := by
  simp only [lastN, List.length_append]
  rw [List.drop_append, List.drop_eq_nil_of_le (by omega)]
  simp; congr 1; omega

theorem lastN_drop {k j : Nat} {l : List α} (h : k + j ≤ l.length) :
    lastN k (l.drop j) = lastN k l := by
  simp only [lastN, List.drop_drop, List.length_drop]; congr 1; omega

/-! ### ring -/

/-- Both pointers are inside a buffer of the right size. -/
structure Ring.Ok (r : Ring) : Prop where
  len : r.buf.length = objBufSize
  inb : r.inP < objBufSize
  outb : r.outP < objBufSize

/-- Buffer content from the oldest to the newest byte position. -/
def Ring.rot (r : Ring) : List UInt8 := r.buf.drop r.inP ++ r.buf.take r.inP

/-- Bytes waiting. -/
def Ring.pend (r : Ring) : List UInt8 := lastN r.numBuffered r.rot

theorem Ring.Ok.rot_len {r : Ring} (h : r.Ok) : r.rot.length = objBufSize := by
  simp [Ring.rot]; have := h.len; have := h.inb; omega

theorem Ring.Ok.nb_lt {r : Ring} (h : r.Ok) : r.numBuffered < objBufSize := by
  unfold Ring.numBuffered; have := h.inb; have := h.outb; split <;> omega

theorem Ring.Ok.pend_len {r : Ring} (h : r.Ok) : r.pend.length = r.numBuffered := by
  rw [Ring.pend, length_lastN, h.rot_len]; have := h.nb_lt; omega

theorem Ring.iov_eq {r : Ring} (h : r.Ok) : r.iov = some r.pend := by
  have hl := h.len; have hi := h.inb; have ho := h.outb
  have hrl := h.rot_len
  unfold Ring.iov memread
  by_cases h1 : r.outP > r.inP
  · have hnb : r.numBuffered = (objBufSize - r.outP) + r.inP := by
      unfold Ring.numBuffered; rw [if_neg (by omega)]
    have hp : r.pend = r.buf.drop r.outP ++ r.buf.take r.inP := by
      rw [Ring.pend, hnb, lastN, hrl, Ring.rot, List.drop_append_of_le_length (by simp; omega),
        List.drop_drop]
      congr 2; omega
    rw [if_pos h1, if_pos (by omega)]
    have ht : (r.buf.drop r.outP).take (objBufSize - r.outP) = r.buf.drop r.outP := by
      apply List.take_of_length_le; simp; omega
    by_cases h2 : r.inP > 0
    · simp [h2, hp, ht, show r.inP ≤ r.buf.length by omega]
    · have : r.inP = 0 := by omega
      simp [this, hp, ht]
  · rw [if_neg h1]
    have hnb : r.numBuffered = r.inP - r.outP := by
      unfold Ring.numBuffered; rw [if_pos (by omega)]
    have hp : r.pend = (r.buf.drop r.outP).take (r.inP - r.outP) := by
      rw [Ring.pend, hnb, lastN, hrl, Ring.rot, List.drop_append, List.drop_eq_nil_of_le (by simp; omega)]
      simp only [List.nil_append, List.length_drop]
      rw [show objBufSize - (r.inP - r.outP) - (r.buf.length - r.inP) = r.outP by omega,
        ← List.drop_take]
    by_cases h2 : r.inP > r.outP
    · rw [if_pos h2, if_pos (by omega), hp]
    · rw [if_neg h2, hp, show r.inP - r.outP = 0 by omega]; simp

theorem rot_chunk (buf d : List UInt8) (i : Nat) (h : i + d.length ≤ buf.length) :
    (buf.take i ++ d ++ buf.drop (i + d.length)).drop (i + d.length) ++
      (buf.take i ++ d ++ buf.drop (i + d.length)).take (i + d.length) =
    (buf.drop i ++ buf.take i ++ d).drop d.length := by
  have h1 : (buf.take i ++ d).length = i + d.length := by simp; omega
  rw [List.drop_left' h1, List.take_left' h1, List.append_assoc,
    List.drop_append_of_le_length (by simp; omega), List.drop_drop]

theorem rot_wrap (buf d : List UInt8) (i : Nat) (h : i < buf.length)
    (hd : buf.length - i < d.length) (hd2 : d.length < buf.length) :
    let m := buf.length - i
    let b1 := buf.take i ++ d.take m
    let b2 := d.drop m ++ b1.drop (d.length - m)
    b2.drop (d.length - m) ++ b2.take (d.length - m) =
    (buf.drop i ++ buf.take i ++ d).drop d.length := by
  intro m b1 b2
  have h1 : (d.drop m).length = d.length - m := by simp
  simp only [b2]
  rw [List.drop_left' h1, List.take_left' h1]
  simp only [b1]
  rw [List.drop_append_of_le_length (by simp; omega), List.append_assoc, List.take_append_drop]
  rw [List.drop_append_of_le_length (l₁ := buf.drop i ++ buf.take i) (by simp; omega)]
  rw [List.drop_append, List.drop_eq_nil_of_le (as := buf.drop i) (by simp; omega)]
  simp [m]

/-- Key lemma: a write appends to the rotated content. -/
theorem Ring.write_spec {r : Ring} (h : r.Ok) {d : List UInt8} (h0 : 0 < d.length)
    (hd : d.length < objBufSize) :
    ∃ r', r.write d = some r' ∧ r'.Ok ∧ r'.rot = (r.rot ++ d).drop d.length ∧
      r'.numBuffered = min (objBufSize - 1) (r.numBuffered + d.length) ∧
      r'.inP = (if r.inP + d.length < objBufSize then r.inP + d.length
                else r.inP + d.length - objBufSize) ∧
      r'.wrap = (r.wrap || decide (objBufSize ≤ r.inP + d.length)) := by
  obtain ⟨buf, i, o, w⟩ := r
  have hl := h.len; have hi := h.inb; have ho := h.outb
  simp only at hl hi ho
  have hm : objBufSize = 16384 := rfl
  unfold Ring.write
  simp only [show ¬ d.length = 0 by omega, show ¬ d.length ≥ objBufSize by omega, if_false]
  by_cases hc : d.length ≤ objBufSize - i
  · -- one chunk
    have hmin : min d.length (objBufSize - i) = d.length := by omega
    have hrc := rot_chunk buf d i (by omega)
    simp only [hmin, List.take_length, List.drop_length, Nat.sub_self, memcpy,
      show i + d.length ≤ buf.length by omega, if_true]
    by_cases he : i + d.length = objBufSize
    · simp only [he, if_true, Option.bind_eq_bind, Option.bind_some, Option.pure_def,
        Nat.lt_irrefl, if_false, gt_iff_lt, Nat.zero_add]
      refine ⟨_, rfl, ⟨?_, ?_, ?_⟩, ?_, ?_, ?_, ?_⟩
      · simp; omega
      · simp; omega
      · simp only; split
        · split <;> omega
        · exact ho
      · simp only [Ring.rot]
        rw [← hrc, he, List.drop_eq_nil_of_le (as := buf) (i := objBufSize) (by omega)]
        rw [List.drop_eq_nil_of_le (i := objBufSize) (by simp; omega),
          List.take_of_length_le (i := objBufSize) (by simp; omega)]
        simp
      · simp only [Ring.numBuffered]
        repeat' split
        all_goals omega
      · simp
      · simp
    · simp only [he, if_false, Option.bind_eq_bind, Option.bind_some, Option.pure_def,
        Nat.lt_irrefl, if_false, gt_iff_lt, Nat.add_zero]
      refine ⟨_, rfl, ⟨?_, ?_, ?_⟩, ?_, ?_, ?_, ?_⟩
      · simp; omega
      · simp; omega
      · simp only; split
        · split <;> omega
        · exact ho
      · simp only [Ring.rot]; exact hrc
      · simp only [Ring.numBuffered]
        repeat' split
        all_goals omega
      · simp [show i + d.length < objBufSize by omega]
      · simp [show ¬ objBufSize ≤ i + d.length by omega]
  · -- two chunks
    have hmin : min d.length (objBufSize - i) = objBufSize - i := by omega
    have hlt : (d.take (objBufSize - i)).length = objBufSize - i := by simp; omega
    have hb1 : (buf.take i ++ d.take (objBufSize - i) ++ buf.drop objBufSize) =
        buf.take i ++ d.take (objBufSize - i) := by
      rw [List.drop_eq_nil_of_le (by omega), List.append_nil]
    have hb1l : (buf.take i ++ d.take (objBufSize - i)).length = objBufSize := by
      simp; omega
    have hrw := rot_wrap buf d i (by omega) (by omega) (by omega)
    simp only [hmin, memcpy, hlt, hb1, hb1l,
      show i + (objBufSize - i) = objBufSize by omega, hl, Nat.le_refl, if_true,
      Option.bind_eq_bind, Option.bind_some, Option.pure_def, gt_iff_lt,
      show 0 < d.length - (objBufSize - i) by omega, List.length_drop, Nat.zero_add,
      show d.length - (objBufSize - i) ≤ objBufSize by omega, List.take_zero, List.nil_append]
    rw [hl] at hrw
    refine ⟨_, rfl, ⟨?_, ?_, ?_⟩, ?_, ?_, ?_, ?_⟩
    · simp; omega
    · simp; omega
    · simp only; split
      · split <;> omega
      · exact ho
    · simp only [Ring.rot]; exact hrw
    · simp only [Ring.numBuffered]
      repeat' split
      all_goals omega
    · simp only; rw [if_neg (by omega)]; omega
    · simp [show objBufSize ≤ i + d.length by omega]

theorem Ring.write_pend {r : Ring} (h : r.Ok) {d : List UInt8} (hd : d.length < objBufSize) :
    ∃ r', r.write d = some r' ∧ r'.Ok ∧ r'.pend = lastN queueCap (r.pend ++ d) := by
  by_cases h0 : d.length = 0
  · refine ⟨r, by simp [Ring.write, h0], h, ?_⟩
    have : d = [] := by simpa using h0
    rw [this, List.append_nil, lastN_eq_self]
    rw [h.pend_len, queueCap_eq]; have := h.nb_lt; omega
  · obtain ⟨r', h1, h2, h3, h4, -⟩ := Ring.write_spec h (d := d) (by omega) hd
    refine ⟨r', h1, h2, ?_⟩
    have hrl := h.rot_len; have hnb := h.nb_lt
    rw [Ring.pend, h4, h3, lastN_drop (by simp; omega), Ring.pend, queueCap_eq]
    rw [show lastN r.numBuffered r.rot ++ d = lastN (r.numBuffered + d.length) (r.rot ++ d) by
      rw [lastN_append_le (by omega)]; congr 2; omega]
    rw [lastN_lastN]

theorem take_min_length (l : List α) (n : Nat) : l.take (min n l.length) = l.take n := by
  simp [List.take_eq_take_iff]

theorem drop_min_length (l : List α) (n : Nat) : l.drop (min n l.length) = l.drop n := by
  by_cases h : n ≤ l.length
  · rw [Nat.min_eq_left h]
  · rw [List.drop_eq_nil_of_le (by omega), List.drop_eq_nil_of_le (by omega)]

theorem Ring.flush_pend {r : Ring} (h : r.Ok) (n : Nat) :
    ∃ r', r.flush n = some (r', r.pend.take n) ∧ r'.Ok ∧ r'.pend = r.pend.drop n ∧
      r'.rot = r.rot ∧ r'.inP = r.inP ∧ r'.wrap = r.wrap := by
  have hpl := h.pend_len; have hnb := h.nb_lt
  have hl := h.len; have hi := h.inb; have ho := h.outb
  simp only [Ring.flush, Ring.iov_eq h, Option.bind_eq_bind, Option.bind_some, Option.pure_def]
  rw [← take_min_length r.pend n, ← drop_min_length r.pend n]
  have hm : min n r.pend.length ≤ r.numBuffered := by omega
  generalize min n r.pend.length = k at hm
  by_cases hz : k > 0
  · rw [if_pos hz]
    refine ⟨r.advance k, rfl, ⟨hl, hi, ?_⟩, ?_, rfl, rfl, rfl⟩
    · simp only [Ring.advance]; split <;> omega
    · have hnb' : (r.advance k).numBuffered = r.numBuffered - k := by
        simp only [Ring.numBuffered] at hm ⊢
        simp only [Ring.advance]
        repeat' split
        all_goals (try split at hm)
        all_goals omega
      have hrot : (r.advance k).rot = r.rot := rfl
      rw [Ring.pend, hnb', hrot]
      have hrl := h.rot_len
      simp only [Ring.pend, lastN, List.drop_drop]
      congr 1; omega
  · rw [if_neg hz]
    have : k = 0 := by omega
    subst this
    exact ⟨r, by simp, h, by simp, rfl, rfl, rfl⟩

theorem Ring.reset_ok {r : Ring} (h : r.Ok) : r.reset.Ok ∧ r.reset.pend = [] := by
  refine ⟨⟨h.len, by simp [Ring.reset, objBufSize], by simp [Ring.reset, objBufSize]⟩, ?_⟩
  simp [Ring.reset, Ring.pend, Ring.numBuffered, lastN, Ring.rot]

theorem Ring.create_ok {mem : List UInt8} (h : mem.length = objBufSize) :
    (Ring.create mem).Ok ∧ (Ring.create mem).pend = [] := by
  refine ⟨⟨h, by simp [Ring.create, objBufSize], by simp [Ring.create, objBufSize]⟩, ?_⟩
  simp [Ring.create, Ring.pend, Ring.numBuffered, lastN, Ring.rot]

end Conman
