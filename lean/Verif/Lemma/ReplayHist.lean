import Verif.Model.ReplayHist
import Verif.Spec.Replay
import Verif.Props.Ring

/-
The buffer of a log after a history: helper lemmas for C102.
-/
namespace Conman
open Spec

theorem bytes_spec (d : List UInt8) : ∀ {r : Ring}, r.Ok → d.length < objBufSize →
    ∃ r' outs, r.run (d.map fun b => .write [b]) = some (r', outs) ∧ r'.Ok ∧ r'.rot = (r.rot ++ d).drop d.length ∧
      r'.inP = (if r.inP + d.length < objBufSize then r.inP + d.length else r.inP + d.length - objBufSize) ∧
      r'.wrap = (r.wrap || decide (objBufSize ≤ r.inP + d.length)) := by
  induction d with
  | nil =>
    intro r h _
    have := h.inb
    exact ⟨r, [], rfl, h, by simp, by simp [this], by simp; intro; omega⟩
  | cons b d ih =>
    intro r h hd
    have hN := objBufSize_eq
    rw [List.length_cons] at hd
    obtain ⟨r1, a1, a2, a3, -, a5, a6⟩ := Ring.write_spec h (d := [b]) (by simp) (by simp; omega)
    obtain ⟨r2, outs, b1, b2, b3, b4, b5⟩ := ih a2 (by omega)
    have hi := h.inb
    refine ⟨r2, [] :: outs, ?_, b2, ?_, ?_, ?_⟩
    · simp only [List.map_cons, Ring.run, Ring.step, a1, b1, Option.map_some, Option.bind_eq_bind, Option.bind_some, Option.pure_def]
    · rw [b3, a3]
      have hrl := h.rot_len
      generalize r.rot = x at hrl ⊢
      cases x with
      | nil => simp at hrl; omega
      | cons y x => simp
    · rw [b4, a5]
      simp only [List.length_cons, List.length_nil]
      repeat' split
      all_goals omega
    · rw [b5, a6, a5]
      simp only [List.length_cons, List.length_nil]
      cases r.wrap
      · simp only [Bool.false_or, ← Bool.decide_or]
        rw [decide_eq_decide]
        split <;> omega
      · simp

/-- The same as far as a replay is concerned. -/
structure Ring.Like (r r2 : Ring) : Prop where
  ok : r.Ok
  ok2 : r2.Ok
  rot : r.rot = r2.rot
  inP : r.inP = r2.inP
  wrap : r.wrap = r2.wrap

theorem Ring.Like.buf {r r2 : Ring} (h : r.Like r2) : r.buf = r2.buf := by
  have e := h.rot
  have l1 := h.ok.len
  have l2 := h.ok2.len
  have i1 := h.ok.inb
  rw [Ring.rot, Ring.rot, ← h.inP] at e
  have := List.append_inj e (by simp [l1, l2])
  rw [← List.take_append_drop r.inP r.buf, this.1, this.2, List.take_append_drop]

theorem Ring.Like.replay {r r2 : Ring} (h : r.Like r2) (name : List UInt8) : performLogReplay name (some r) = performLogReplay name (some r2) := by
  have : ∀ k, r.replay k = r2.replay k := by
    intro k
    unfold Ring.replay
    rw [h.buf, h.inP, h.wrap]
  simp only [performLogReplay, this]

theorem enters_lt (d : List UInt8) : (enters d).length < objBufSize := by
  have hN := objBufSize_eq
  unfold enters
  split
  · rw [List.length_take]; omega
  · omega

theorem Ring.Like.write {r r2 : Ring} (h : r.Like r2) (d : List UInt8) : ∃ r' r2' outs, r.write d = some r' ∧
    r2.run (histOps ((enters d).map some)) = some (r2', outs) ∧ r'.Like r2' := by
  have hN := objBufSize_eq
  have ho : histOps ((enters d).map some) = (enters d).map fun b => RingOp.write [b] := by simp [histOps]
  rw [ho]
  by_cases h0 : d = []
  · subst h0
    exact ⟨r, r2, [], by simp [Ring.write], by rw [enters, if_neg (by simp; omega)]; rfl, h⟩
  have e : r.write d = r.write (enters d) := by
    unfold enters
    split
    · rename_i hg
      exact C01_long_write r d hg
    · rfl
  have hp : 0 < (enters d).length := by
    have := List.length_pos_iff.2 h0
    unfold enters
    split
    · rw [List.length_take]; omega
    · exact this
  obtain ⟨r', a1, a2, a3, -, a5, a6⟩ := Ring.write_spec h.ok hp (enters_lt d)
  obtain ⟨r2', outs, b1, b2, b3, b4, b5⟩ := bytes_spec (enters d) h.ok2 (enters_lt d)
  exact ⟨r', r2', outs, e.trans a1, b1, a2, b2, by rw [a3, b3, h.rot], by rw [a5, b4, h.inP], by rw [a6, b5, h.wrap, h.inP]⟩

theorem Ring.Like.reset {r r2 : Ring} (h : r.Like r2) : r.reset.Like r2.reset :=
  ⟨(Ring.reset_ok h.ok).1, (Ring.reset_ok h.ok2).1, by
    have := h.buf
    simp only [Ring.rot, Ring.reset, this], rfl, h.wrap⟩

theorem enters_take (d : List UInt8) : enters d = d.take 16383 := by
  have hN := objBufSize_eq
  unfold enters
  split
  · rw [hN]
  · rw [List.take_of_length_le (by omega)]

theorem histOps_append (a b : List (Option UInt8)) : histOps (a ++ b) = histOps a ++ histOps b := List.map_append

theorem Ring.Like.run (ops : List RingOp) : ∀ {r r2 : Ring}, r.Like r2 → ∃ r' outs r2' outs2, r.run ops = some (r', outs) ∧
    r2.run (histOps (opsHist ops)) = some (r2', outs2) ∧ r'.Like r2' := by
  induction ops with
  | nil => exact fun h => ⟨_, [], _, [], rfl, rfl, h⟩
  | cons op ops ih =>
    intro r r2 h
    have hc : opsHist (op :: ops) = opsHist [op] ++ opsHist ops := by simp [opsHist]
    rw [hc, histOps_append, Ring.run_append]
    suffices H : ∃ r1 o r21 outs1, r.step op = some (r1, o) ∧ r2.run (histOps (opsHist [op])) = some (r21, outs1) ∧ r1.Like r21 by
      obtain ⟨r1, o, r21, outs1, a1, a2, a3⟩ := H
      obtain ⟨r', outs, r2', outs2, b1, b2, b3⟩ := ih a3
      exact ⟨r', o :: outs, r2', outs1 ++ outs2, by simp [Ring.run, a1, b1], by simp [a2, b2], b3⟩
    cases op with
    | write d =>
      obtain ⟨r1, r21, outs1, a1, a2, a3⟩ := h.write d
      exact ⟨r1, [], r21, outs1, by simp [Ring.step, a1], by simpa [opsHist, enters_take] using a2, a3⟩
    | flush n =>
      obtain ⟨r1, a1, a2, -, a4, a5, a6⟩ := Ring.flush_pend h.ok n
      exact ⟨r1, _, r2, [], a1, rfl, a2, h.ok2, a4.trans h.rot, a5.trans h.inP, a6.trans h.wrap⟩
    | reset => exact ⟨_, [], _, _, rfl, rfl, h.reset⟩

/-- A log since its buffer was emptied last. -/
theorem Ring.Hist.hist (h : List (Option UInt8)) : ∀ {r : Ring} {cur : List UInt8}, r.Hist cur → shortLives cur.length h = true →
    ∃ r' outs, r.run (histOps h) = some (r', outs) ∧ r'.Hist (lifeOf cur h) := by
  induction h with
  | nil => exact fun g _ => ⟨_, [], rfl, g⟩
  | cons x h ih =>
    intro r cur g hs
    cases x with
    | some b =>
      obtain ⟨r1, a1, a2⟩ := g.write (d := [b]) (by rw [objBufSize_eq]; simp)
      obtain ⟨r', outs, b1, b2⟩ := ih a2 (by simpa [shortLives] using hs)
      exact ⟨r', [] :: outs, by simp [histOps, Ring.run, Ring.step, a1] at b1 ⊢; simp [b1], b2⟩
    | none =>
      simp only [shortLives, Bool.and_eq_true, decide_eq_true_eq] at hs
      have hw : r.wrap = false := by
        rw [← Bool.not_eq_true, g.wrapIff, objBufSize_eq]
        omega
      have g1 : r.reset.Hist [] := ⟨(Ring.reset_ok g.ok).1, by simp [lastN, Ring.rot, Ring.reset], by simp [Ring.reset, hw, objBufSize], fun _ => rfl⟩
      obtain ⟨r', outs, b1, b2⟩ := ih g1 hs.2
      exact ⟨r', [] :: outs, by simp [histOps, Ring.run, Ring.step] at b1 ⊢; simp [b1], b2⟩

theorem lifeOf_append (a b : List (Option UInt8)) : ∀ cur, lifeOf cur (a ++ b) = lifeOf (lifeOf cur a) b := by
  induction a with
  | nil => exact fun _ => rfl
  | cons x a ih => intro cur; cases x <;> exact ih _

theorem lifeOf_bytes (t : List UInt8) : ∀ cur, lifeOf cur (t.map some) = cur ++ t := by
  induction t with
  | nil => intro cur; simp [lifeOf]
  | cons b t ih => intro cur; rw [List.map_cons, lifeOf, ih]; simp

theorem lifeOf_cut (h : List (Option UInt8)) (hc : h.getLast? = some none) : ∀ cur, lifeOf cur h = [] := by
  obtain ⟨a, rfl⟩ := List.getLast?_eq_some_iff.1 hc
  intro cur
  rw [lifeOf_append]
  rfl

theorem shortLives_bytes (t : List UInt8) : ∀ n, shortLives n (t.map some) = true := by
  induction t with
  | nil => exact fun _ => rfl
  | cons b t ih => exact fun n => ih (n + 1)

theorem shortLives_append (h : List (Option UInt8)) (t : List UInt8) : ∀ n, shortLives n h = true → shortLives n (h ++ t.map some) = true := by
  induction h with
  | nil => exact fun n _ => shortLives_bytes t n
  | cons x h ih =>
    intro n g
    cases x with
    | some b => exact ih _ g
    | none =>
      simp only [shortLives, Bool.and_eq_true, List.cons_append] at g ⊢
      exact ⟨g.1, ih _ g.2⟩

/-- What is written, given what is read from the buffer. -/
theorem replay_wrote {r : Ring} {w name : List UInt8} (hw : w.length ≤ 4096) (hname : name.length ≤ 1023) (h : ∀ room, 4096 ≤ room → r.replay room = some w) :
    performLogReplay name (some r) = .wrote (replayOf name w) := by
  have hN := objBufSize_eq
  have hb : replayMsg (bs "Begin log replay of console") name [] =
      bs "\r\n<ConMan> Begin log replay of console [" ++ name ++ bs "].\r\n" := by
    simp [replayMsg, msgPrefix, msgSuffix, bs]
  have he : replayMsg (bs "End log replay of console") name [] =
      bs "\r\n<ConMan> End log replay of console [" ++ name ++ bs "].\r\n" := by
    simp [replayMsg, msgPrefix, msgSuffix, bs]
  have hbl : (bs "\r\n<ConMan> Begin log replay of console [" ++ name ++ bs "].\r\n").length =
      name.length + 44 := by
    simp only [List.length_append]
    rw [show (bs "\r\n<ConMan> Begin log replay of console [").length = 40 by decide,
      show (bs "].\r\n").length = 4 by decide]; omega
  have hel : (bs "\r\n<ConMan> End log replay of console [" ++ name ++ bs "].\r\n").length =
      name.length + 42 := by
    simp only [List.length_append]
    rw [show (bs "\r\n<ConMan> End log replay of console [").length = 38 by decide,
      show (bs "].\r\n").length = 4 by decide]; omega
  unfold performLogReplay
  simp only [hb, he, hbl, hel]
  rw [if_neg (by omega), if_neg (by omega)]
  rw [h _ (by omega)]
  simp only [List.length_append] at hbl
  dsimp only
  rw [if_neg (by omega), if_pos (by omega)]
  simp [replayOf]

theorem replay_of_hist {r : Ring} {H : List UInt8} (h2 : r.Hist H) (name : List UInt8) (hname : name.length ≤ 1023) :
    performLogReplay name (some r) = .wrote (replayOf name (lastN 4096 H)) :=
  replay_wrote (by rw [length_lastN]; omega) hname fun room hr => by rw [h2.replay, Nat.min_eq_left hr]

/-! ### Whatever happened to the log -/

/-- All that a replay can read was written. -/
structure Ring.Own (r : Ring) (h : List (Option UInt8)) : Prop where
  ok : r.Ok
  own : ∀ b ∈ lastN (if r.wrap then objBufSize else r.inP) r.rot, some b ∈ h

theorem mem_lastN_le {j k : Nat} {l : List UInt8} {b : UInt8} (h : j ≤ k) (hb : b ∈ lastN j l) : b ∈ lastN k l := by
  have : lastN j l = lastN j (lastN k l) := by rw [lastN_lastN, Nat.min_eq_left h]
  rw [this] at hb
  exact List.mem_of_mem_drop hb

theorem Ring.Own.run (h : List (Option UInt8)) : ∀ {r : Ring} {h0 : List (Option UInt8)}, r.Own h0 →
    ∃ r' outs, r.run (histOps h) = some (r', outs) ∧ r'.Own (h0 ++ h) := by
  induction h with
  | nil => exact fun g => ⟨_, [], rfl, by simpa using g⟩
  | cons x h ih =>
    intro r h0 g
    have hN := objBufSize_eq
    have hin := g.ok.inb
    have hrl := g.ok.rot_len
    cases x with
    | some b =>
      obtain ⟨r1, a1, a2, a3, -, a5, a6⟩ := Ring.write_spec g.ok (d := [b]) (by simp) (by simp; omega)
      have g1 : r1.Own (h0 ++ [some b]) := by
        refine ⟨a2, fun y hy => ?_⟩
        have hrot : r1.rot = r.rot.drop 1 ++ [b] := by
          rw [a3, List.drop_append_of_le_length (by simp; omega)]; simp
        simp only [List.length_cons, List.length_nil] at a5 a6
        suffices H : y ∈ lastN (if r.wrap then objBufSize else r.inP) r.rot ∨ y = b by
          rcases H with z | z
          · exact List.mem_append_left _ (g.own y z)
          · rw [z]; simp
        rw [hrot] at hy
        have key : ∀ K, K ≤ objBufSize → K ≤ (if r.wrap then objBufSize else r.inP) + 1 → y ∈ lastN K (r.rot.drop 1 ++ [b]) →
            y ∈ lastN (if r.wrap then objBufSize else r.inP) r.rot ∨ y = b := by
          intro K k1 k2 hy
          cases K with
          | zero =>
            have := List.length_pos_of_mem hy
            rw [length_lastN] at this
            omega
          | succ K =>
            rw [lastN_append_le (by simp)] at hy
            rcases List.mem_append.1 hy with z | z
            · left
              rw [lastN_drop (by simp; omega)] at z
              exact mem_lastN_le (by simp; omega) z
            · right; simpa using z
        refine key _ ?_ ?_ hy
        · split
          · exact Nat.le_refl _
          · rw [a5]; split <;> omega
        · rw [a6, a5]
          cases r.wrap
          · by_cases hc : objBufSize ≤ r.inP + (0 + 1)
            · simp only [hc, decide_true, Bool.or_true, if_true, Bool.false_eq_true, if_false]
            · simp only [hc, decide_false, Bool.or_false, Bool.false_eq_true, if_false]
              split <;> omega
          · simp
      obtain ⟨r', outs, b1, b2⟩ := ih g1
      exact ⟨r', [] :: outs, by simp [histOps, Ring.run, Ring.step, a1] at b1 ⊢; simp [b1], by simpa using b2⟩
    | none =>
      have g1 : r.reset.Own (h0 ++ [none]) := by
        refine ⟨(Ring.reset_ok g.ok).1, fun y hy => List.mem_append_left _ (g.own y ?_)⟩
        by_cases hw : r.wrap = true
        · rw [hw, if_pos rfl, lastN_eq_self (by omega)]
          have hy' := List.mem_of_mem_drop hy
          simp only [Ring.rot, Ring.reset, List.drop_zero, List.take_zero, List.append_nil] at hy'
          rw [Ring.rot, List.mem_append, or_comm, ← List.mem_append, List.take_append_drop]
          exact hy'
        · simp [Ring.reset, hw, lastN, Ring.rot] at hy
      obtain ⟨r', outs, b1, b2⟩ := ih g1
      exact ⟨r', [] :: outs, by simp [histOps, Ring.run, Ring.step] at b1 ⊢; simp [b1], by simpa using b2⟩

theorem Ring.Own.replay {r : Ring} {h : List (Option UInt8)} (g : r.Own h) :
    ∃ w, w.length ≤ 4096 ∧ (∀ b ∈ w, some b ∈ h) ∧ ∀ room, 4096 ≤ room → r.replay room = some w := by
  have hN := objBufSize_eq
  have hin := g.ok.inb
  refine ⟨lastN (min 4096 (if r.wrap then objBufSize - 1 else r.inP)) r.rot, by rw [length_lastN]; omega,
    fun b hb => g.own b (mem_lastN_le ?_ hb), fun room hr => ?_⟩
  · split <;> omega
  · unfold Ring.replay
    have hn : (if (if (if r.wrap then objBufSize - 1 else r.inP) > 4096 then 4096 else (if r.wrap then objBufSize - 1 else r.inP)) > room then room else
        (if (if r.wrap then objBufSize - 1 else r.inP) > 4096 then 4096 else (if r.wrap then objBufSize - 1 else r.inP))) =
        min 4096 (if r.wrap then objBufSize - 1 else r.inP) := by
      repeat' split
      all_goals omega
    simp only
    rw [hn, Ring.read_back g.ok (by omega)]

theorem create_own {mem : List UInt8} (h : mem.length = 16384) : (Ring.create mem).Own [] :=
  ⟨(Ring.create_ok h).1, by simp [Ring.create, lastN, Ring.rot]⟩

end Conman
