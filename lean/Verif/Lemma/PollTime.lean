import Verif.Lemma.Timer

namespace Conman
open Spec

theorem tdiv_k (x : Int) : (0 ≤ x → x.tdiv 1000 = x / 1000) ∧ (x < 0 → x.tdiv 1000 = - ((-x) / 1000)) := by
  refine ⟨fun h => Int.tdiv_eq_ediv_of_nonneg h, fun h => ?_⟩
  have : x = - (-x) := by omega
  rw [this, Int.neg_tdiv, Int.tdiv_eq_ediv_of_nonneg (by omega), Int.neg_neg]

theorem toInt32_id {x : Int} (h : -2147483648 ≤ x ∧ x < 2147483648) : longToInt x = x := by
  unfold longToInt
  rw [Int.emod_eq_of_lt (by omega) (by omega)]; omega

theorem diff_future {a b : TV} (ha : TV.Normal a) (hb : TV.Normal b) (h : ¬ TV.before a b) (hr : a.sec - b.sec ≤ 2147482) :
    ∃ ms, diffTimeval a b = some ms ∧ TV.us a - TV.us b ≤ ms * 1000 ∧ ms * 1000 ≤ TV.us a - TV.us b + 1000 ∧
      (ms * 1000 = TV.us a - TV.us b + 1000 ↔ b.usec < a.usec ∧ (a.usec - b.usec) % 1000 = 0) := by
  unfold TV.before at h
  unfold TV.Normal at ha hb
  have hd := tdiv_k (a.usec - b.usec)
  unfold diffTimeval
  dsimp only
  by_cases hp : 0 ≤ a.usec - b.usec
  · rw [hd.1 hp]
    rw [toInt32_id (by omega)]
    by_cases hq : a.usec > b.usec
    · rw [if_pos ⟨by omega, hq⟩, if_neg (by unfold intMax; omega)]
      refine ⟨_, rfl, ?_⟩
      unfold TV.us; omega
    · rw [if_neg (fun e => hq e.2), if_neg (fun e => by omega)]
      refine ⟨_, rfl, ?_⟩
      unfold TV.us; omega
  · rw [hd.2 (by omega)]
    rw [toInt32_id (by omega)]
    rw [if_neg (fun e => by omega), if_neg (fun e => by omega)]
    refine ⟨_, rfl, ?_⟩
    unfold TV.us; omega

theorem diff_past {a b : TV} (ha : TV.Normal a) (hb : TV.Normal b) (h : TV.before a b) (hr : b.sec - a.sec ≤ 2147482) :
    ∃ ms, diffTimeval a b = some ms ∧ ms < 0 := by
  unfold TV.before at h
  unfold TV.Normal at ha hb
  have hd := tdiv_k (a.usec - b.usec)
  unfold diffTimeval
  dsimp only
  by_cases hp : 0 ≤ a.usec - b.usec
  · rw [hd.1 hp]
    rw [toInt32_id (by omega)]
    rw [if_neg (fun e => by omega), if_neg (fun e => by omega)]
    refine ⟨_, rfl, ?_⟩
    omega
  · rw [hd.2 (by omega)]
    rw [toInt32_id (by omega)]
    rw [if_neg (fun e => by omega)]
    by_cases hs : a.sec ≤ b.sec
    · rw [if_pos ⟨hs, by omega⟩, if_neg (by omega)]
      exact ⟨_, rfl, by omega⟩
    · exact absurd h (by omega)

theorem getTimeval_us {now : TV} {ms : Int} (h : TV.Normal now) (hms : 0 < ms) :
    TV.Normal (getTimeval now ms) ∧ TV.us (getTimeval now ms) = TV.us now + ms * 1000 := by
  unfold getTimeval
  rw [if_pos hms]
  dsimp only
  have e1 : ms.tdiv 1000 = ms / 1000 := Int.tdiv_eq_ediv_of_nonneg (by omega)
  have e2 : ms.tmod 1000 = ms % 1000 := Int.tmod_eq_emod_of_nonneg (by omega)
  rw [e1, e2]
  unfold TV.Normal at *
  split
  · rw [Int.tdiv_eq_ediv_of_nonneg (by omega), Int.tmod_eq_emod_of_nonneg (by omega)]
    unfold TV.us
    dsimp only
    omega
  · unfold TV.us
    dsimp only
    omega

end Conman
