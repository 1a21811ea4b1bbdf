import Verif.Lemma.WorldInputRun
import Verif.Lemma.WorldScreen
import Verif.Props.ClientExit
import Verif.Spec.EndToEnd

/-
From the terminal of a client to the console: helper lemmas for C94.
-/
namespace Conman
open Spec

theorem check_cs {stk : List UInt8} {a b : CSess} (h : a.check stk = some b) :
    b.sent = a.sent ∧ b.cs = a.cs ∧ (a.phase = .running → a.cs.done = false → b.phase = .running) ∧ (a.cs.done = true → b.phase ≠ .running) := by
  unfold CSess.check at h
  by_cases hd : a.cs.done = true
  · rw [if_pos hd] at h
    split at h
    · cases h; exact ⟨rfl, rfl, fun _ g => by rw [hd] at g; simp at g, fun _ => by simp⟩
    · obtain ⟨t, -, rfl⟩ := Option.map_eq_some_iff.1 h
      exact ⟨rfl, rfl, fun _ g => by rw [hd] at g; simp at g, fun _ => by simp⟩
  · rw [if_neg hd] at h
    cases h
    exact ⟨rfl, rfl, fun g _ => g, fun g => absurd g hd⟩

/-- What a session sends is what its keys make it send. -/
theorem run_keys {stk : List UInt8} (es : List CEvent) : ∀ {s s' : CSess}, s.phase = .running → s.cs.done = false → s.run stk es = some s' →
    s'.sent = s.sent ++ (s.cs.keys (keysTyped es)).2 := by
  induction es with
  | nil => intro s s' _ _ h; cases h; simp [keysTyped, CState.keys]
  | cons e es ih =>
    intro s s' hp hd h
    unfold CSess.run at h
    obtain ⟨s1, h1, h2⟩ := Option.bind_eq_some_iff.1 h
    unfold CSess.step at h1
    rw [if_pos hp] at h1
    cases e with
    | fail =>
      cases h1
      rw [run_stuck _ _ (by simp)] at h2
      cases h2
      simp [keysTyped, CState.keys]
    | term =>
      obtain ⟨c1, c2, c3, c4⟩ := check_cs h1
      rw [run_stuck _ _ (c4 rfl)] at h2
      cases h2
      rw [c1]
      simp [keysTyped, CState.keys]
    | round k d =>
      dsimp only at h1
      obtain ⟨s2, k1, k2⟩ := Option.bind_eq_some_iff.1 h1
      obtain ⟨c1, c2, c3, c4⟩ := check_cs k2
      have kk : s2.phase = .running ∧ (k = some none → s2.cs.done = true) ∧
          ∀ l, s2.sent ++ (s2.cs.keys l).2 = s.sent ++ (s.cs.keys (keyOf k ++ if k = some none then [] else l)).2 := by
        rcases k with _ | _ | c
        · simp only [CSess.onKey, Option.some.injEq] at k1; subst k1
          exact ⟨hp, by simp, fun l => by simp [keyOf]⟩
        · simp only [CSess.onKey, Option.some.injEq] at k1; subst k1
          refine ⟨hp, fun _ => rfl, fun l => ?_⟩
          rw [keys_done rfl]; simp [CState.keys, keyOf]
        · simp only [CSess.onKey, Option.map_eq_some_iff] at k1
          obtain ⟨ns, -, rfl⟩ := k1
          refine ⟨hp, by simp, fun l => ?_⟩
          simp [CState.keys, keyOf]
      obtain ⟨q1, q2, q3⟩ := kk
      have dd : (s2.onData d).phase = s2.phase ∧ (s2.onData d).sent = s2.sent ∧ (d = some [] → (s2.onData d).cs.done = true) ∧
          (d ≠ some [] → (s2.onData d).cs = s2.cs) := by
        rcases d with _ | _ | ⟨b, d⟩ <;> simp [CSess.onData]
      obtain ⟨r1, r2, r3, r4⟩ := dd
      have stop : (s2.onData d).cs.done = true → s'.sent = s2.sent := by
        intro g
        rw [run_stuck _ _ (c4 g)] at h2
        cases h2
        rw [c1, r2]
      by_cases hk : k = some none
      · have := q3 []
        rw [if_pos hk] at this
        have e1 : (s2.onData d).cs.done = true := by
          by_cases hdd : d = some []
          · exact r3 hdd
          · rw [r4 hdd]; exact q2 hk
        rw [stop e1]
        unfold keysTyped
        rw [if_pos (Or.inl hk), ← this]; simp [CState.keys]
      by_cases hdd : d = some []
      · have := q3 []
        rw [stop (r3 hdd)]
        unfold keysTyped
        rw [if_neg hk] at this
        rw [if_pos (Or.inr hdd), ← this]; simp [CState.keys]
      have := q3 (keysTyped es)
      rw [if_neg hk] at this
      unfold keysTyped
      rw [if_neg (fun g => g.elim hk hdd), ← this]
      by_cases hdn : s2.cs.done = true
      · rw [stop (by rw [r4 hdd]; exact hdn), keys_done hdn, List.append_nil]
      · have hdn : s2.cs.done = false := by simpa using hdn
        rw [ih (c3 (by rw [r1]; exact q1) (by rw [r4 hdd]; exact hdn)) (by rw [c2, r4 hdd]; exact hdn) h2, c1, r2, c2, r4 hdd]

theorem keepsOn_run (ks : List Key) (v : View) (hv : v.rw = true ∧ v.closed = false) (h : ks.all keepsOn = true) :
    (v.run ks).2.1 = typedText ks ∧ (v.run ks).2.2.all inert = true := by
  induction ks generalizing v with
  | nil => exact ⟨rfl, rfl⟩
  | cons k ks ih =>
    rw [List.all_cons, Bool.and_eq_true] at h
    obtain ⟨rw', bc, cr, cl⟩ := v
    obtain ⟨rfl, rfl⟩ := hv
    cases k with
    | data b =>
      have := ih ⟨true, bc, cr, false⟩ ⟨rfl, rfl⟩ h.2
      simp [View.run, View.step, typedText] at this ⊢
      exact this
    | cmd c =>
      have := ih ⟨true, bc, cr, false⟩ ⟨rfl, rfl⟩ h.2
      have hc := h.1
      simp only [keepsOn, List.contains_eq_mem, List.mem_cons, List.not_mem_nil, or_false, decide_eq_true_eq] at hc
      rcases hc with rfl | rfl | rfl | rfl | rfl | rfl | rfl <;> cases bc <;> cases cr <;>
        simp [View.run, View.step, typedText, inert, modeSwitch] at this ⊢ <;> exact this

theorem wireData_prefix {a b : List UInt8} (e : Bool) (h : a <+: b) : wireData e a <+: wireData e b ∧ wireCommands e a <+: wireCommands e b := by
  obtain ⟨t, rfl⟩ := h
  rw [wireData_append, wireCommands_append]
  exact ⟨List.prefix_append _ _, List.prefix_append _ _⟩

/-- What arrives of a session's bytes. -/
theorem session_wire {stk : List UInt8} {es : List CEvent} {s s' : CSess} (hp : s.phase = .running) (hd : s.cs.done = false)
    (he : s.cs.esc < 0x80) (hi : s.cs.inEsc = false) (ho : s.cs.wrClosed = false) (hc : s.cs.cmd = .connect) (hr : s.run stk es = some s')
    (hk : (parseKeys s.cs.esc (keysTyped es)).all keepsOn = true) {y z : List UInt8} (hy : s'.sent = s.sent ++ y) (hz : z <+: y) :
    wireData false z <+: typedText (parseKeys s.cs.esc (keysTyped es)) ∧ (wireCommands false z).all inert = true ∧
      (z = y → wireData false z = typedText (parseKeys s.cs.esc (keysTyped es))) := by
  rw [run_keys es hp hd hr, List.append_cancel_left_eq] at hy
  have hrel : Rel s.cs ⟨s.cs.cmd = .connect, s.cs.bcast, s.cs.reset, false⟩ :=
    ⟨fun _ => by simp, rfl, rfl, by simp [ho], fun h => by simp [hd] at h⟩
  have hs := (session_sim (keysTyped es) s.cs _ hrel he hi).2
  have hw := unescRef_wire (s.cs.keys (keysTyped es)).2 false
  rw [hs] at hw
  dsimp only at hw
  obtain ⟨k1, k2⟩ := keepsOn_run _ ⟨s.cs.cmd = .connect, s.cs.bcast, s.cs.reset, false⟩ ⟨by simpa using hc, rfl⟩ hk
  rw [k1, hy] at hw
  rw [hw.2] at k2
  obtain ⟨p1, p2⟩ := wireData_prefix false hz
  refine ⟨by rw [hw.1]; exact p1, ?_, fun g => by rw [g, ← hw.1]⟩
  rw [List.all_eq_true] at k2 ⊢
  exact fun a ha => k2 a (p2.subset ha)

end Conman
