import Verif.Model.Stamp
import Verif.Props.Notice

/-
Property C53 (periodic timestamps).
-/
namespace Conman
open Spec (sinceMidnight Aligned)

theorem scheduleStamp_first {zone now m : Int} (hm : 0 < m) (hm2 : m ≤ 2147482207) :
    ∃ q : Int, 0 ≤ q ∧ scheduleStamp zone now m 0 = some (now - sinceMidnight zone now + 60 * ((q + 1) * m)) ∧ q * m ≤ sinceMidnight zone now / 60 ∧
      sinceMidnight zone now / 60 < (q + 1) * m := by
  unfold scheduleStamp getLocaltime mktime sinceMidnight
  simp only [if_true]
  generalize hl : now + zone = l
  have hmin : l % 86400 / 3600 * 60 + l % 3600 / 60 = l % 86400 / 60 := by omega
  rw [hmin]
  generalize hk : l % 86400 / 60 = k
  have hk0 : 0 ≤ k ∧ k < 1440 := by omega
  have hq0 : 0 ≤ k / m := Int.ediv_nonneg (by omega) (by omega)
  have hq1 : k / m * m ≤ k := Int.ediv_mul_le _ (by omega)
  have hq2 : k < (k / m + 1) * m := Int.lt_ediv_add_one_mul_self _ hm
  have hb : (k / m + 1) * m ≤ 2147483647 := by
    have : (k / m + 1) * m = k / m * m + m := by rw [Int.add_mul, Int.one_mul]
    omega
  rw [if_neg (by omega)]
  refine ⟨k / m, hq0, ?_, hq1, hq2⟩
  generalize (k / m + 1) * m = x
  congr 1
  omega

/-- **C53.** The first timestamp is set strictly in the future, at most one interval away, and a multiple of the interval after local midnight. -/
theorem C53_first (zone now m : Int) (hm : 0 < m) (hm2 : m ≤ 2147482207) :
    ∃ t, scheduleStamp zone now m 0 = some t ∧ now < t ∧ t ≤ now + 60 * m ∧ (t - (now - sinceMidnight zone now)) % (60 * m) = 0 := by
  obtain ⟨q, h0, h1, h2, h3⟩ := scheduleStamp_first (zone := zone) (now := now) hm hm2
  refine ⟨_, h1, ?_, ?_, ?_⟩
  · omega
  · have : (q + 1) * m = q * m + m := by rw [Int.add_mul, Int.one_mul]
    have : 0 ≤ sinceMidnight zone now := Int.emod_nonneg _ (by omega)
    omega
  · rw [show now - sinceMidnight zone now + 60 * ((q + 1) * m) - (now - sinceMidnight zone now) = (60 * m) * (q + 1) by
      rw [Int.mul_comm (q + 1) m, ← Int.mul_assoc]; omega]
    exact Int.mul_emod_right _ _

/-- **C53.** Every later timestamp is set exactly one interval after the one before, which was at a full minute. -/
theorem C53_next (zone now m t : Int) (ht : t ≠ 0) (hs : (t + zone) % 60 = 0) (hm2 : m ≤ 2147483588) :
    scheduleStamp zone now m t = some (t + 60 * m) ∧ (t + 60 * m + zone) % 60 = 0 := by
  refine ⟨?_, by omega⟩
  unfold scheduleStamp getLocaltime mktime
  simp only [if_neg ht]
  generalize hl : t + zone = l at *
  rw [if_neg (by omega)]
  congr 1
  omega

/-- **C53.** Over the whole life of the daemon, whenever the timers are handled: the timestamps are set at `t`, `t + m`, `t + 2m`, ... minutes, where `t`
is the first one after the start.  They never stop.  (`t > 0`: the times are after 1970.) -/
theorem C53_schedule (zone m start : Int) (fires : List Int) (hm : 0 < m) (hm2 : m ≤ 2147482207) (h0 : 0 < start) :
    ∃ t, scheduleStamp zone start m 0 = some t ∧ stampRun zone m 0 (start :: fires) = some ((List.range (fires.length + 1)).map fun (k : Nat) => t + 60 * m * k) := by
  obtain ⟨q, hq, h1, h2, h3⟩ := scheduleStamp_first (zone := zone) (now := start) hm hm2
  refine ⟨_, h1, ?_⟩
  generalize hq' : (q + 1) * m = x at *
  generalize ht : start - sinceMidnight zone start + 60 * x = t at *
  have htp : 0 < t := by omega
  have hs : (t + zone) % 60 = 0 := by unfold sinceMidnight at ht; omega
  rw [stampRun, h1, Option.bind_some]
  have key : ∀ (l : List Int) (t : Int), 0 < t → (t + zone) % 60 = 0 → stampRun zone m t l = some ((List.range l.length).map fun (k : Nat) => t + 60 * m + 60 * m * k) := by
    intro l
    induction l with
    | nil => intro t _ _; rfl
    | cons now l ih =>
      intro t ht hs
      obtain ⟨e1, e2⟩ := C53_next zone now m t (by omega) hs (by omega)
      rw [stampRun, e1, Option.bind_some, ih (t + 60 * m) (by omega) e2, Option.map_some, List.length_cons, List.range_succ_eq_map, List.map_cons, List.map_map]
      simp only [Option.some.injEq, List.cons.injEq]
      refine ⟨by simp, List.map_congr_left fun j _ => ?_⟩
      simp only [Function.comp, Nat.succ_eq_add_one, Int.natCast_add, Int.mul_add]
      simp; omega
  rw [key fires t htp hs, Option.map_some, List.range_succ_eq_map, List.map_cons, List.map_map]
  simp only [Option.some.injEq, List.cons.injEq]
  refine ⟨by simp, List.map_congr_left fun j _ => ?_⟩
  simp only [Function.comp, Nat.succ_eq_add_one, Int.natCast_add, Int.mul_add]
  simp; omega

/-- **C53.** If the interval divides the day, every timestamp is at a multiple of the interval after local midnight. -/
theorem C53_aligned (zone m start : Int) (fires : List Int) (hm : 0 < m) (hd : m ∣ 1440) (h0 : 0 < start) :
    ∃ l, stampRun zone m 0 (start :: fires) = some l ∧ l.length = fires.length + 1 ∧ ∀ t ∈ l, Aligned zone m t := by
  have hle : m ≤ 1440 := Int.le_of_dvd (by omega) hd
  obtain ⟨t, h1, h2⟩ := C53_schedule zone m start fires hm (by omega) h0
  refine ⟨_, h2, by simp, ?_⟩
  intro u hu
  rw [List.mem_map] at hu
  obtain ⟨k, _, rfl⟩ := hu
  obtain ⟨q, hq, h3, _, _⟩ := scheduleStamp_first (zone := zone) (now := start) hm (by omega)
  rw [h1, Option.some.injEq] at h3
  obtain ⟨c, hc⟩ := hd
  -- the local time is a multiple of the interval
  have hmul : ∃ d, t + 60 * m * k + zone = 60 * m * d := by
    refine ⟨(start + zone) / 86400 * c + (q + 1) + k, ?_⟩
    have e1 : start - sinceMidnight zone start + zone = 86400 * ((start + zone) / 86400) := by unfold sinceMidnight; omega
    have e2 : 60 * m * ((start + zone) / 86400 * c + (q + 1) + k) = 60 * (m * c) * ((start + zone) / 86400) + 60 * ((q + 1) * m) + 60 * m * k := by
      rw [Int.mul_add, Int.mul_add]
      congr 1
      congr 1
      · rw [Int.mul_comm ((start + zone) / 86400) c, ← Int.mul_assoc, Int.mul_assoc 60 m c]
      · rw [Int.mul_comm (q + 1) m, Int.mul_assoc]
    rw [e2, ← hc, h3]
    omega
  obtain ⟨d, hd⟩ := hmul
  unfold Aligned sinceMidnight
  have : (60 * m) ∣ 86400 := ⟨c, by rw [Int.mul_assoc, ← hc]; rfl⟩
  rw [Int.emod_emod_of_dvd _ this, hd]
  exact Int.mul_emod_right _ _

/-- **C53.** A timestamp set when its predecessor is handled is strictly in the future and at most one interval away if the predecessor is handled in time,
that is at or after its time and before the next one is due. -/
theorem C53_future_partial (zone now m t : Int) (ht : 0 < t) (hs : (t + zone) % 60 = 0) (hm2 : m ≤ 2147483588) (h1 : t ≤ now) (h2 : now < t + 60 * m) :
    ∃ t', scheduleStamp zone now m t = some t' ∧ now < t' ∧ t' ≤ now + 60 * m :=
  ⟨_, (C53_next zone now m t (by omega) hs hm2).1, h2, by omega⟩

/-- **C53 is false if the clock is changed.**  After the clock was set forward by some intervals, the next timestamp is set in the past (so a timestamp is
written at once for every interval passed over); after it was set back, it is further away than one interval. -/
theorem C53_clock_changed (zone now m t : Int) (ht : 0 < t) (hs : (t + zone) % 60 = 0) (hm2 : m ≤ 2147483588) :
    ∃ t', scheduleStamp zone now m t = some t' ∧ (t + 60 * m ≤ now → t' ≤ now) ∧ (now < t → t' > now + 60 * m) :=
  ⟨_, (C53_next zone now m t (by omega) hs hm2).1, fun h => h, fun h => by omega⟩

/-- **C53.** When the timer expires, each log gets one message, complete if it has at most 1020 bytes, and a new timer is set exactly if there is a log. -/
theorem C53_messages (zone m now next : Int) (buf pre suf nowText : List UInt8) (logs : List (List UInt8)) (hb : buf.length = 1024)
    (hz : (0 : UInt8) ∉ pre ∧ (0 : UInt8) ∉ suf ∧ (0 : UInt8) ∉ nowText ∧ ∀ n ∈ logs, (0 : UInt8) ∉ n) :
    timestampLogs zone m now next buf pre suf nowText logs =
      if logs = [] then some ([], none)
      else (scheduleStamp zone now m next).map fun t => (logs.map (fun n =>
        let s := pre ++ bs "Console [" ++ n ++ bs "] log at " ++ nowText ++ suf
        if s.length < 1021 then s else s.take 1021 ++ [0x0D, 0x0A]), some t) := by
  have key : ∀ (logs : List (List UInt8)) (buf : List UInt8), buf.length = 1024 → (∀ n ∈ logs, (0 : UInt8) ∉ n) → stampMsgs buf pre suf nowText logs =
      some (logs.map (fun n => let s := pre ++ bs "Console [" ++ n ++ bs "] log at " ++ nowText ++ suf
        if s.length < 1021 then s else s.take 1021 ++ [0x0D, 0x0A])) := by
    intro logs
    induction logs with
    | nil => intro buf _ _; rfl
    | cons n logs ih =>
      intro buf hb hn
      have h0 : (0 : UInt8) ∉ stampText pre suf n nowText := by
        unfold stampText
        simp only [List.mem_append, not_or]
        exact ⟨⟨⟨⟨⟨hz.1, by decide⟩, hn n (by simp)⟩, by decide⟩, hz.2.2.1⟩, hz.2.1⟩
      obtain ⟨b', e1, e2, e3⟩ := C49_link_text buf (stampText pre suf n nowText) hb h0
      rw [stampMsgs, show stampMsgs.linkBuf' buf (stampText pre suf n nowText) = linkBuf buf (stampText pre suf n nowText) from rfl, e1, Option.bind_some, e3,
        Option.bind_some, ih b' e2 (fun k hk => hn k (by simp [hk]))]
      rfl
  unfold timestampLogs
  rw [key logs buf hb hz.2.2.2, Option.bind_some]
  split
  · rename_i h; rw [h]; rfl
  · rfl

/-- C53 on a case: started at 10:07:30 local time (zone +3600) with an interval of 15 minutes, the timestamps are at 10:15, 10:30, 10:45. -/
example : stampRun 3600 15 0 [1700039250, 1700039700, 1700040605] = some [1700039700, 1700040600, 1700041500] ∧
    Spec.sinceMidnight 3600 1700039250 = 10 * 3600 + 7 * 60 + 30 ∧ Aligned 3600 15 1700039700 := by
  refine ⟨by decide +kernel, by decide, by unfold Aligned; decide⟩

/-- C53 on a case: the messages of two logs. -/
example : (timestampLogs 0 60 3600 3600 (List.replicate 1024 7) (bs "<CM> ") (bs ".") (bs "noon") [bs "a", bs "b"]) =
    some ([bs "<CM> Console [a] log at noon.", bs "<CM> Console [b] log at noon."], some 7200) := by
  rw [C53_messages 0 60 3600 3600 _ _ _ _ _ List.length_replicate (by decide)]
  decide +kernel

end Conman
