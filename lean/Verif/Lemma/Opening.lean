import Verif.Spec.Opening

/-! Calls on one object, from beginning to end. -/
namespace Conman
open Spec

/-- What the state of an object says of its descriptor and program. -/
def XRest (o : XObj) : Prop := match o.kind with
  | .process => o.state ≠ .pending ∧ (o.state = .down → o.fd = none ∧ o.pid = none)
  | .telnet => o.state = .down → o.fd = none
  | .unixsock => o.state ≠ .up → o.fd = none
  | .ipmi => o.state ≠ .up → o.fd = none
  | _ => True

/-- An object with no call on it: `own` its descriptors, `pr` its programs, `ar` its timers. -/
structure XGood (o : XObj) (own : Nat → Prop) (pr : Nat → Prop) (ar : Nat → XTimer → Prop) : Prop where
  fds : ∀ n, own n ↔ o.fd = some n
  kids : ∀ p, pr p → o.pid = some p
  tim : ∀ t w, ar t w → o.timer = some t
  arc : ∀ t, ar t .connect → o.state ≠ .up
  rest : XRest o

def ownAfter (own : Nat → Prop) (e : XEff) : Nat → Prop := fun n => (own n ∧ n ∉ e.closes) ∨ n ∈ e.opens
def prAfter (pr : Nat → Prop) (e : XEff) : Nat → Prop := fun p => (pr p ∧ e.kills ≠ some p) ∨ e.spawn = some p
def arAfter (ar : Nat → XTimer → Prop) (t : Nat) (e : XEff) : Nat → XTimer → Prop := fun t' w => (ar t' w ∧ e.cancels ≠ some t') ∨ (t' = t ∧ e.arms = some w)

/-- Whatever the system answers, the call ends well. -/
inductive XOk : XObj → (Nat → Prop) → (Nat → Prop) → (Nat → XTimer → Prop) → XLoc → List XI → Prop
  | done {o own pr ar v} : XGood o own pr ar → XOk o own pr ar v []
  | step {o own pr ar v a l} :
    (∀ x t, (∀ n ∈ (xExec o v x t a).opens, ¬ own n) → (xExec o v x t a).opens.Nodup → (xExec o v x t a).dead = false ∧ ∀ n ∈ (xExec o v x t a).closes, own n) →
    (∀ x t, (∀ n ∈ (xExec o v x t a).opens, ¬ own n) → (xExec o v x t a).opens.Nodup →
      XOk (xExec o v x t a).o (ownAfter own (xExec o v x t a)) (prAfter pr (xExec o v x t a)) (arAfter ar t (xExec o v x t a)) (xExec o v x t a).loc ((xExec o v x t a).todo ++ l)) →
    XOk o own pr ar v (a :: l)

variable {o : XObj} {own pr : Nat → Prop} {ar : Nat → XTimer → Prop} {v : XLoc}

theorem ok_step {a : XI} {l : List XI}
    (h : ∀ x t e, e = xExec o v x t a → (∀ n ∈ e.opens, ¬ own n) → e.opens.Nodup →
      e.dead = false ∧ (∀ n ∈ e.closes, own n) ∧ XOk e.o (ownAfter own e) (prAfter pr e) (arAfter ar t e) e.loc (e.todo ++ l)) : XOk o own pr ar v (a :: l) :=
  .step (fun x t h1 h2 => ⟨(h x t _ rfl h1 h2).1, (h x t _ rfl h1 h2).2.1⟩) (fun x t h1 h2 => (h x t _ rfl h1 h2).2.2)

theorem own_same {e : XEff} (hc : e.closes = []) (ho : e.opens = []) (h : ∀ n, own n ↔ o.fd = some n) (hf : e.o.fd = o.fd) : ∀ n, ownAfter own e n ↔ e.o.fd = some n := by
  intro n
  unfold ownAfter
  rw [hc, ho, hf, ← h n]
  simp

theorem pr_same {e : XEff} (hs : e.spawn = none) (h : ∀ p, pr p → o.pid = some p) (hp : e.o.pid = o.pid) : ∀ p, prAfter pr e p → e.o.pid = some p := by
  intro p hx
  unfold prAfter at hx
  rw [hs] at hx
  rcases hx with hx | hx
  · rw [hp]; exact h p hx.1
  · cases hx

theorem ar_none {e : XEff} {t : Nat} (ha : e.arms = none) (h : ∀ t w, ¬ ar t w) : ∀ t' w, ¬ arAfter ar t e t' w := by
  intro t' w hx
  unfold arAfter at hx
  rw [ha] at hx
  rcases hx with hx | hx
  · exact h _ _ hx.1
  · cases hx.2

theorem ar_cancel {e : XEff} {t : Nat} (ha : e.arms = none) (hc : e.cancels = o.timer) (h : ∀ t w, ar t w → o.timer = some t) : ∀ t' w, ¬ arAfter ar t e t' w := by
  intro t' w hx
  unfold arAfter at hx
  rw [ha] at hx
  rcases hx with hx | hx
  · exact hx.2 (by rw [hc]; exact h _ _ hx.1)
  · cases hx.2

theorem ar_same {e : XEff} {t : Nat} (ha : e.arms = none) (ht : e.o.timer = o.timer) (h : ∀ t w, ar t w → o.timer = some t) : ∀ t' w, arAfter ar t e t' w → e.o.timer = some t' := by
  intro t' w hx
  unfold arAfter at hx
  rw [ha] at hx
  rcases hx with hx | hx
  · rw [ht]; exact h _ _ hx.1
  · cases hx.2

theorem ar_new {e : XEff} {t : Nat} (h : ∀ t w, ar t w → e.cancels = some t) (ht : e.o.timer = some t) : (∀ t' w, arAfter ar t e t' w → e.o.timer = some t') ∧ ∀ t' w, arAfter ar t e t' w → e.arms = some w := by
  refine ⟨fun t' w hx => ?_, fun t' w hx => ?_⟩ <;> unfold arAfter at hx
  · rcases hx with hx | hx
    · exact absurd (h _ _ hx.1) hx.2
    · rw [ht, hx.1]
  · rcases hx with hx | hx
    · exact absurd (h _ _ hx.1) hx.2
    · exact hx.2

theorem ok_arm {w : XTimer} (h1 : ∀ n, own n ↔ o.fd = some n) (h2 : ∀ p, pr p → o.pid = some p) (h3 : ∀ t w, ¬ ar t w) (h4 : w = .connect → o.state ≠ .up) (h5 : XRest o) :
    XOk o own pr ar v [.arm w] := by
  refine ok_step fun x t e he _ _ => ?_
  subst he
  refine ⟨rfl, (fun n h => nomatch h), .done ?_⟩
  have n := ar_new (e := xExec o v x t (.arm w)) (ar := ar) (t := t) (fun t w h => absurd h (h3 t w)) rfl
  refine ⟨own_same rfl rfl h1 rfl, pr_same rfl h2 rfl, n.1, fun t' h => ?_, h5⟩
  have := n.2 _ _ h
  exact h4 (Option.some.inj this)

/-- `close(fd); fd = -1` -/
theorem ok_close {l : List XI} (h1 : ∀ n, own n ↔ o.fd = some n)
    (h : ∀ own' pr' ar', (∀ n, ¬ own' n) → (∀ p, pr' p → pr p) → (∀ t w, ar' t w → ar t w) → XOk { o with fd := none } own' pr' ar' v l) : XOk o own pr ar v (.close :: .clear :: l) := by
  refine ok_step fun x t e he _ _ => ?_
  subst he
  refine ⟨rfl, fun n hn => ?_, ?_⟩
  · rw [h1]; exact Option.mem_toList.1 hn
  refine ok_step fun x2 t2 e2 he2 _ _ => ?_
  subst he2
  refine ⟨rfl, (fun n hn => nomatch hn), h _ _ _ (fun n hn => ?_) (fun p hp => ?_) (fun t' w ha => ?_)⟩
  · rcases hn with ⟨hn, _⟩ | hn
    · rcases hn with ⟨hn, hc⟩ | hn
      · rw [h1] at hn; exact hc (Option.mem_toList.2 hn)
      · cases hn
    · cases hn
  · rcases hp with ⟨hp, _⟩ | hp
    · rcases hp with ⟨hp, _⟩ | hp
      · exact hp
      · cases hp
    · cases hp
  · rcases ha with ⟨ha, _⟩ | ha
    · rcases ha with ⟨ha, _⟩ | ha
      · exact ha
      · cases ha.2
    · cases ha.2

/-- `if (fd >= 0) { close(fd); fd = -1; }` -/
theorem ok_look {l : List XI} (h1 : ∀ n, own n ↔ o.fd = some n)
    (h : ∀ own' pr' ar', (∀ n, ¬ own' n) → (∀ p, pr' p → pr p) → (∀ t w, ar' t w → ar t w) → XOk { o with fd := none } own' pr' ar' v l) : XOk o own pr ar v (.look :: l) := by
  refine ok_step fun x t e he _ _ => ?_
  subst he
  refine ⟨rfl, (fun n hn => nomatch hn), ?_⟩
  have hpr : ∀ p, prAfter pr (xExec o v x t .look) p → pr p := by
    intro p hp
    rcases hp with ⟨hp, _⟩ | hp
    · exact hp
    · cases hp
  have har : ∀ t' w, arAfter ar t (xExec o v x t .look) t' w → ar t' w := by
    intro t' w ha
    rcases ha with ⟨ha, _⟩ | ha
    · exact ha
    · cases ha.2
  have ho : ∀ n, ownAfter own (xExec o v x t .look) n ↔ o.fd = some n := own_same rfl rfl h1 rfl
  show XOk o _ _ _ v ((if o.fd = none then [] else [.close, .clear]) ++ l)
  by_cases hf : o.fd = none
  · rw [if_pos hf]
    have : { o with fd := none } = o := by cases o; simp only at hf; rw [hf]
    have hh := h (ownAfter own (xExec o v x t .look)) _ _ (fun n hn => by rw [ho, hf] at hn; cases hn) hpr har
    rw [this] at hh
    exact hh
  · rw [if_neg hf]
    refine ok_close ho fun own' pr' ar' a b c => h _ _ _ a (fun p hp => hpr p (b p hp)) (fun t' w ha => har t' w (c t' w ha))

theorem none_iff {own : Nat → Prop} (h : ∀ n, ¬ own n) : ∀ n, own n ↔ (none : Option Nat) = some n := fun n => ⟨fun x => absurd x (h n), fun x => nomatch x⟩

/-- Both states of a telnet or unixsock console. -/
theorem ok_state_arm {s : ConnState} {w : XTimer} {i : XI} (hi : (i = .up ∧ s = .up ∧ w = .stable) ∨ (i = .down ∧ s = .down ∧ w = .connect)) (hk : o.kind = .telnet ∨ o.kind = .unixsock)
    (h1 : ∀ n, own n ↔ o.fd = some n) (h2 : ∀ p, pr p → o.pid = some p) (h3 : ∀ t w, ¬ ar t w) (h4 : s = .down → o.fd = none) : XOk o own pr ar v [i, .arm w] := by
  refine ok_step fun x t e he _ _ => ?_
  subst he
  have key : (xExec o v x t i) = { o := { o with state := s }, loc := v } := by
    rcases hi with ⟨rfl, rfl, _⟩ | ⟨rfl, rfl, _⟩ <;> rfl
  rw [key]
  refine ⟨rfl, fun n hn => (nomatch hn), ok_arm (own_same rfl rfl h1 rfl) (pr_same rfl h2 rfl) (ar_none rfl h3) (fun hw => ?_) ?_⟩
  · rcases hi with ⟨_, rfl, rfl⟩ | ⟨_, rfl, rfl⟩
    · cases hw
    · intro h; cases h
  · unfold XRest
    rcases hk with hk | hk
    · simp only [hk]; exact h4
    · simp only [hk]
      intro hs
      rcases hi with ⟨_, rfl, _⟩ | ⟨_, rfl, _⟩
      · exact absurd rfl hs
      · exact h4 rfl

theorem ok_cancel {l : List XI} (h1 : ∀ n, own n ↔ o.fd = some n) (h2 : ∀ p, pr p → o.pid = some p) (h3 : ∀ t w, ar t w → o.timer = some t)
    (h : ∀ own' pr' ar', (∀ n, own' n ↔ o.fd = some n) → (∀ p, pr' p → o.pid = some p) → (∀ t w, ¬ ar' t w) → XOk { o with timer := none } own' pr' ar' v l) : XOk o own pr ar v (.cancel :: l) := by
  refine ok_step fun x t e he _ _ => ?_
  subst he
  refine ⟨rfl, fun n hn => (nomatch hn), ?_⟩
  exact h _ _ _ (own_same (o := o) (e := xExec o v x t .cancel) rfl rfl h1 rfl) (pr_same (o := o) (e := xExec o v x t .cancel) rfl h2 rfl) (ar_cancel (o := o) rfl rfl h3)

/-- `disconnect_telnet_obj`, `disconnect_unixsock_obj` -/
theorem ok_disc (hk : o.kind = .telnet ∨ o.kind = .unixsock) (h1 : ∀ n, own n ↔ o.fd = some n) (h2 : ∀ p, pr p → o.pid = some p) (h3 : ∀ t w, ar t w → o.timer = some t) :
    XOk o own pr ar v [.cancel, .look, .down, .arm .connect] := by
  refine ok_cancel h1 h2 h3 fun own1 pr1 ar1 a b c => ok_look a fun own2 pr2 ar2 a2 b2 c2 => ?_
  exact ok_state_arm (s := .down) (.inr ⟨rfl, rfl, rfl⟩) hk (none_iff a2) (fun p hp => b p (b2 p hp)) (fun t w h => c t w (c2 t w h)) (fun _ => rfl)

theorem ok_up (hk : o.kind = .telnet ∨ o.kind = .unixsock) (h1 : ∀ n, own n ↔ o.fd = some n) (h2 : ∀ p, pr p → o.pid = some p) (h3 : ∀ t w, ¬ ar t w) :
    XOk o own pr ar v [.up, .arm .stable] :=
  ok_state_arm (s := .up) (.inl ⟨rfl, rfl, rfl⟩) hk h1 h2 h3 (fun h => nomatch h)

theorem ok_connect (hk : o.kind = .telnet) (h1 : ∀ n, own n ↔ o.fd = some n) (h2 : ∀ p, pr p → o.pid = some p) (h3 : ∀ t w, ¬ ar t w) : XOk o own pr ar v [.connect] := by
  refine ok_step fun x t e he _ _ => ?_
  have hd : ∀ {e : XEff}, e = { o := o, loc := v, todo := [.cancel, .look, .down, .arm .connect] } → e.dead = false ∧ (∀ n ∈ e.closes, own n) ∧ XOk e.o (ownAfter own e) (prAfter pr e) (arAfter ar t e) e.loc (e.todo ++ []) := by
    rintro e rfl
    exact ⟨rfl, fun n hn => (nomatch hn), ok_disc (.inl hk) (own_same rfl rfl h1 rfl) (pr_same rfl h2 rfl) (fun t' w h => absurd h (ar_none rfl h3 t' w))⟩
  simp only [xExec] at he
  by_cases hf : o.fd = none
  · rw [if_pos hf] at he
    exact hd he
  · rw [if_neg hf] at he
    cases hx : x.conn with
    | fail => rw [hx] at he; exact hd he
    | ok =>
      rw [hx] at he
      subst he
      exact ⟨rfl, fun n hn => (nomatch hn), ok_up (.inl hk) (own_same rfl rfl h1 rfl) (pr_same rfl h2 rfl) (ar_none rfl h3)⟩
    | inProgress =>
      rw [hx] at he
      subst he
      refine ⟨rfl, fun n hn => (nomatch hn), .done ⟨own_same rfl rfl h1 rfl, pr_same rfl h2 rfl, fun t' w h => absurd h (ar_none rfl h3 t' w), fun t' h => absurd h (ar_none rfl h3 t' _), ?_⟩⟩
      unfold XRest
      simp only [hk]
      intro h; cases h

theorem ok_soError (hk : o.kind = .telnet) (h1 : ∀ n, own n ↔ o.fd = some n) (h2 : ∀ p, pr p → o.pid = some p) (h3 : ∀ t w, ¬ ar t w) : XOk o own pr ar v [.soError] := by
  refine ok_step fun x t e he _ _ => ?_
  simp only [xExec] at he
  subst he
  refine ⟨rfl, fun n hn => (nomatch hn), ?_⟩
  split
  · exact ok_disc (.inl hk) (own_same rfl rfl h1 rfl) (pr_same rfl h2 rfl) (fun t' w h => absurd h (ar_none rfl h3 t' w))
  · exact ok_up (.inl hk) (own_same rfl rfl h1 rfl) (pr_same rfl h2 rfl) (ar_none rfl h3)

theorem ok_uConnect (hk : o.kind = .unixsock) (h1 : ∀ n, own n ↔ o.fd = some n) (h2 : ∀ p, pr p → o.pid = some p) (h3 : ∀ t w, ¬ ar t w) : XOk o own pr ar v [.uConnect] := by
  refine ok_step fun x t e he _ _ => ?_
  simp only [xExec] at he
  subst he
  refine ⟨rfl, fun n hn => (nomatch hn), ?_⟩
  split
  · exact ok_disc (.inr hk) (own_same rfl rfl h1 rfl) (pr_same rfl h2 rfl) (fun t' w h => absurd h (ar_none rfl h3 t' w))
  · exact ok_up (.inr hk) (own_same rfl rfl h1 rfl) (pr_same rfl h2 rfl) (ar_none rfl h3)

/-- A descriptor is opened while there is none. -/
theorem own_open {e : XEff} {k : Nat} (hc : e.closes = []) (ho : e.opens = [k]) (h : ∀ n, ¬ own n) (hf : e.o.fd = some k) : ∀ n, ownAfter own e n ↔ e.o.fd = some n := by
  intro n
  unfold ownAfter
  rw [hc, ho, hf]
  constructor
  · rintro (hn | hn)
    · exact absurd hn.1 (h n)
    · rw [List.mem_singleton] at hn; rw [hn]
  · intro hn
    cases hn
    exact .inr (List.mem_singleton.2 rfl)

theorem tBranch_down {x : XAns} {t : Nat} (h : o.state = .down) : xExec o v x t .tBranch = { o, loc := v, todo := if x.ok then [.socket] else [.arm .connect] } := by
  cases o; simp only at h; subst h; rfl

theorem tBranch_pending {x : XAns} {t : Nat} (h : o.state = .pending) : xExec o v x t .tBranch = { o, loc := v, todo := [.soError] } := by
  cases o; simp only at h; subst h; rfl

/-- `connect_telnet_obj` -/
theorem ok_tConn (hk : o.kind = .telnet) (hs : o.state ≠ .up) (h1 : ∀ n, own n ↔ o.fd = some n) (h2 : ∀ p, pr p → o.pid = some p) (h3 : ∀ t w, ar t w → o.timer = some t)
    (h4 : o.state = .down → o.fd = none) : XOk o own pr ar v [.tConn] := by
  refine ok_step fun x t e he _ _ => ?_
  subst he
  refine ⟨rfl, fun n hn => (nomatch hn), ok_cancel (o := o) (own_same (o := o) (e := xExec o v x t .tConn) rfl rfl h1 rfl) (pr_same (o := o) (e := xExec o v x t .tConn) rfl h2 rfl)
    (ar_same (o := o) (e := xExec o v x t .tConn) rfl rfl h3) fun own1 pr1 ar1 a b c => ?_⟩
  refine ok_step fun x2 t2 e2 he2 _ _ => ?_
  cases st : o.state with
  | up => exact absurd st hs
  | pending =>
    rw [tBranch_pending (by exact st)] at he2
    subst he2
    exact ⟨rfl, (fun n hn => nomatch hn), ok_soError (o := { o with timer := none }) hk (own_same rfl rfl a rfl) (pr_same rfl b rfl) (ar_none rfl c)⟩
  | down =>
    rw [tBranch_down (by exact st)] at he2
    have hfd := h4 st
    by_cases hx : x2.ok = true
    · rw [if_pos hx] at he2
      subst he2
      refine ⟨rfl, (fun n hn => nomatch hn), ?_⟩
      refine ok_step fun x3 t3 e3 he3 _ _ => ?_
      subst he3
      refine ⟨rfl, (fun n hn => nomatch hn), ok_connect hk ?_ (pr_same (o := { o with timer := none }) rfl (pr_same (o := { o with timer := none }) rfl b rfl) rfl) (ar_none rfl (ar_none rfl c))⟩
      refine own_open (e := xExec _ _ x3 t3 .socket) (k := x3.n) rfl rfl (fun n hn => ?_) rfl
      rcases hn with ⟨hn, _⟩ | hn
      · rw [a, hfd] at hn; cases hn
      · cases hn
    · rw [if_neg hx] at he2
      subst he2
      refine ⟨rfl, (fun n hn => nomatch hn), ?_⟩
      refine ok_arm (o := { o with timer := none }) (own_same rfl rfl a rfl) (pr_same rfl b rfl) (ar_none rfl c) (fun _ h => by rw [st] at h; cases h) ?_
      unfold XRest
      simp only [hk]
      exact fun _ => hfd

/-- `connect_unixsock_obj` -/
theorem ok_uConn (hk : o.kind = .unixsock) (h1 : ∀ n, own n ↔ o.fd = some n) (h2 : ∀ p, pr p → o.pid = some p) (h3 : ∀ t w, ar t w → o.timer = some t)
    (h4 : o.fd = none) : XOk o own pr ar v [.uConn] := by
  refine ok_step fun x t e he _ _ => ?_
  subst he
  refine ⟨rfl, fun n hn => (nomatch hn), ok_cancel (o := o) (own_same (o := o) (e := xExec o v x t .uConn) rfl rfl h1 rfl) (pr_same (o := o) (e := xExec o v x t .uConn) rfl h2 rfl)
    (ar_same (o := o) (e := xExec o v x t .uConn) rfl rfl h3) fun own1 pr1 ar1 a b c => ?_⟩
  refine ok_step fun x2 t2 e2 he2 _ _ => ?_
  simp only [xExec] at he2
  by_cases hx : x2.ok = true
  · rw [if_pos hx] at he2
    subst he2
    refine ⟨rfl, (fun n hn => nomatch hn), ok_uConnect hk ?_ (pr_same (o := { o with timer := none }) rfl b rfl) (ar_none rfl c)⟩
    refine own_open (k := x2.n) rfl rfl (fun n hn => ?_) rfl
    rw [a, h4] at hn; cases hn
  · rw [if_neg hx] at he2
    subst he2
    exact ⟨rfl, (fun n hn => nomatch hn), ok_disc (o := { o with timer := none }) (.inr hk) (own_same rfl rfl a rfl) (pr_same rfl b rfl) (fun t' w h => absurd h (ar_none rfl c t' w))⟩

theorem pBranch_up {x : XAns} {t : Nat} (h : o.state = .up) : xExec o v x t .pBranch = { o, loc := v, todo := [.look, .kill, .arm .connect] } := by
  cases o; simp only at h; subst h; rfl

theorem pBranch_down {x : XAns} {t : Nat} (h : o.state = .down) : xExec o v x t .pBranch = { o, loc := v, todo := [.pair] } := by
  cases o; simp only at h; subst h; rfl

/-- From `socketpair` on, in `connect_process_obj`. -/
theorem ok_pair (hk : o.kind = .process) (hs : o.state = .down) (h1 : ∀ n, own n ↔ o.fd = some n) (h2 : ∀ p, pr p → o.pid = some p) (h3 : ∀ t w, ¬ ar t w)
    (h4 : o.fd = none ∧ o.pid = none) : XOk o own pr ar v [.pair] := by
  have hr : XRest o := by
    unfold XRest
    simp only [hk]
    exact ⟨fun h => (by rw [hs] at h; cases h), fun _ => h4⟩
  have hn0 : ∀ n, ¬ own n := fun n hn => by rw [h1, h4.1] at hn; cases hn
  have hp0 : ∀ p, ¬ pr p := fun n hn => by have := h2 n hn; rw [h4.2] at this; cases this
  refine ok_step fun x t e he ho hd => ?_
  simp only [xExec] at he
  by_cases hx : x.ok = true
  · rw [if_pos hx] at he
    subst he
    refine ⟨rfl, (fun n hn => nomatch hn), ?_⟩
    have hown : ∀ n, ownAfter own { o, loc := { v with a := some x.n, b := some x.m }, todo := [.fork], opens := [x.n, x.m] } n ↔ n = x.n ∨ n = x.m := by
      intro n
      unfold ownAfter
      simp [hn0]
    have hne : x.n ≠ x.m := by
      simp only [List.nodup_cons, List.mem_singleton] at hd
      exact hd.1
    refine ok_step fun x2 t2 e2 he2 _ _ => ?_
    simp only [xExec] at he2
    by_cases hx2 : x2.ok = true
    · rw [if_pos hx2] at he2
      subst he2
      refine ⟨rfl, fun n hn => ?_, ?_⟩
      · rw [hown]; simp at hn; exact .inr hn
      refine ok_step fun x3 t3 e3 he3 _ _ => ?_
      simp only [xExec] at he3
      subst he3
      refine ⟨rfl, (fun n hn => nomatch hn), ok_arm (fun n => ?_) (fun p hp => ?_) (ar_none rfl (ar_none rfl (ar_none rfl h3))) (fun h => nomatch h) ?_⟩
      · have hh : ∀ P : Prop, (((ownAfter own { o, loc := { v with a := some x.n, b := some x.m }, todo := [.fork], opens := [x.n, x.m] } n ∧ n ∉ [x.m]) ∨ False) ∧ True ∨ False ↔ P) ↔ ((n = x.n ∨ n = x.m) ∧ n ≠ x.m ↔ P) := by
          intro P
          rw [hown]
          simp
        have h3 : (n = x.n ∨ n = x.m) ∧ n ≠ x.m ↔ (some x.n : Option Nat) = some n := by
          rw [Option.some.injEq]
          constructor
          · rintro ⟨rfl | rfl, h⟩
            · rfl
            · exact absurd rfl h
          · rintro rfl
            exact ⟨.inl rfl, hne⟩
        have h5 := (hh _).2 h3
        constructor
        · rintro (⟨⟨h6, h7⟩ | h6, _⟩ | h6)
          · exact h5.1 (.inl ⟨.inl ⟨h6, h7⟩, trivial⟩)
          · cases h6
          · cases h6
        · intro h6
          rcases h5.2 h6 with ⟨⟨h7, h8⟩ | h7, _⟩ | h7
          · exact .inl ⟨.inl ⟨h7, h8⟩, (fun h => nomatch h)⟩
          · cases h7
          · cases h7
      · unfold prAfter at hp
        rcases hp with ⟨hp | hp, _⟩ | hp
        · rcases hp.1 with hp | hp
          · exact absurd hp.1 (hp0 p)
          · cases hp
        · exact hp
        · cases hp
      · unfold XRest
        simp only [hk]
        exact ⟨fun h => (by cases h), fun h => (by cases h)⟩
    · rw [if_neg hx2] at he2
      subst he2
      refine ⟨rfl, fun n hn => ?_, ok_arm (fun n => ?_) (pr_same rfl (pr_same rfl h2 rfl) rfl) (ar_none rfl (ar_none rfl h3)) (fun _ h => by rw [hs] at h; cases h) hr⟩
      · rw [hown]; simpa using hn
      · show _ ↔ o.fd = some n
        rw [h4.1]
        constructor
        · rintro (⟨h6, h7⟩ | h6)
          · rw [hown] at h6
            exact absurd (by simpa using h6) h7
          · cases h6
        · intro h6; cases h6
  · rw [if_neg hx] at he
    subst he
    exact ⟨rfl, (fun n hn => nomatch hn), ok_arm (own_same rfl rfl h1 rfl) (pr_same rfl h2 rfl) (ar_none rfl h3) (fun _ h => by rw [hs] at h; cases h) hr⟩

/-- `open_process_obj` -/
theorem ok_process (hk : o.kind = .process) (h1 : ∀ n, own n ↔ o.fd = some n) (h2 : ∀ p, pr p → o.pid = some p) (h3 : ∀ t w, ar t w → o.timer = some t) (hr : XRest o) :
    XOk o own pr ar v [.cancel, .pBranch] := by
  unfold XRest at hr
  simp only [hk] at hr
  refine ok_cancel h1 h2 h3 fun own1 pr1 ar1 a b c => ok_step fun x t e he _ _ => ?_
  cases st : o.state with
  | pending => exact absurd st hr.1
  | down =>
    rw [pBranch_down (by exact st)] at he
    subst he
    exact ⟨rfl, (fun n hn => nomatch hn), ok_pair (o := { o with timer := none }) hk st (own_same rfl rfl a rfl) (pr_same rfl b rfl) (ar_none rfl c) (hr.2 st)⟩
  | up =>
    rw [pBranch_up (by exact st)] at he
    subst he
    refine ⟨rfl, (fun n hn => nomatch hn), ok_look (o := { o with timer := none }) (own_same rfl rfl a rfl) fun own2 pr2 ar2 a2 b2 c2 => ok_step fun x2 t2 e2 he2 _ _ => ?_⟩
    simp only [xExec] at he2
    subst he2
    refine ⟨rfl, (fun n hn => nomatch hn), ok_arm (own_same (o := { o with timer := none, fd := none }) rfl rfl (none_iff a2) rfl) (fun p hp => ?_) (ar_none rfl fun t' w h => ar_none rfl c t' w (c2 t' w h)) (fun _ h => by cases h) ?_⟩
    · rcases hp with ⟨hp, hne⟩ | hp
      · rcases b2 p hp with hp | hp
        · exact absurd (b p hp.1) hne
        · cases hp
      · cases hp
    · unfold XRest
      simp only [hk]
      exact ⟨fun h => (by cases h), fun _ => ⟨trivial, trivial⟩⟩

/-- `open_serial_obj` -/
theorem ok_serial (hk : o.kind = .serial) (h : XGood o own pr ar) : XOk o own pr ar v [.look, .sOpen] := by
  refine ok_look h.fds fun own1 pr1 ar1 a b c => ok_step fun x t e he _ _ => ?_
  simp only [xExec] at he
  have hr : ∀ o : XObj, o.kind = .serial → XRest o := by intro o hk; unfold XRest; simp only [hk]
  by_cases hx : x.ok = true
  · rw [if_pos hx] at he
    subst he
    refine ⟨rfl, (fun n hn => nomatch hn), ok_step fun x2 t2 e2 he2 _ _ => ?_⟩
    simp only [xExec] at he2
    have ht : ∀ {e : XEff} {t w t'}, e.arms = none → arAfter ar1 t e t' w → ar t' w := by
      intro e t w t' he h
      rcases h with h | h
      · exact c _ _ h.1
      · rw [he] at h; cases h.2
    by_cases hx2 : x2.ok = true
    · rw [if_pos hx2] at he2
      subst he2
      refine ⟨rfl, (fun n hn => nomatch hn), .done ⟨fun n => ?_, fun p hp => ?_, fun t' w ha => ?_, fun t' ha => ?_, hr _ hk⟩⟩
      · unfold ownAfter; simp [a, eq_comm]
      · rcases hp with ⟨⟨hp, _⟩ | hp, _⟩ | hp
        · exact h.kids p (b p hp)
        · cases hp
        · cases hp
      · rcases ha with ⟨ha, _⟩ | ha
        · exact h.tim _ _ (ht rfl ha)
        · cases ha.2
      · rcases ha with ⟨ha, _⟩ | ha
        · exact h.arc _ (ht rfl ha)
        · cases ha.2
    · rw [if_neg hx2] at he2
      subst he2
      refine ⟨rfl, fun n hn => ?_, .done ⟨fun n => ?_, fun p hp => ?_, fun t' w ha => ?_, fun t' ha => ?_, hr _ hk⟩⟩
      · unfold ownAfter; simp at hn; simp [hn]
      · unfold ownAfter; simp [a]
      · rcases hp with ⟨⟨hp, _⟩ | hp, _⟩ | hp
        · exact h.kids p (b p hp)
        · cases hp
        · cases hp
      · rcases ha with ⟨ha, _⟩ | ha
        · exact h.tim _ _ (ht rfl ha)
        · cases ha.2
      · rcases ha with ⟨ha, _⟩ | ha
        · exact h.arc _ (ht rfl ha)
        · cases ha.2
  · rw [if_neg hx] at he
    subst he
    refine ⟨rfl, (fun n hn => nomatch hn), .done ⟨own_same (o := { o with fd := none }) rfl rfl (none_iff a) rfl, fun p hp => ?_, fun t' w ha => ?_, fun t' ha => ?_, hr _ hk⟩⟩
    · rcases hp with ⟨hp, _⟩ | hp
      · exact h.kids p (b p hp)
      · cases hp
    · rcases ha with ⟨ha, _⟩ | ha
      · exact h.tim _ _ (c _ _ ha)
      · cases ha.2
    · rcases ha with ⟨ha, _⟩ | ha
      · exact h.arc _ (c _ _ ha)
      · cases ha.2

/-- `open_test_obj` -/
theorem ok_test (hk : o.kind = .test) (h : XGood o own pr ar) : XOk o own pr ar v [.cancel, .look, .tOpen] := by
  have hr : ∀ o : XObj, o.kind = .test → XRest o := by intro o hk; unfold XRest; simp only [hk]
  refine ok_cancel h.fds h.kids h.tim fun own1 pr1 ar1 a b c => ok_look a fun own2 pr2 ar2 a2 b2 c2 => ok_step fun x t e he _ _ => ?_
  have c3 : ∀ t w, ¬ ar2 t w := fun t w h => c t w (c2 t w h)
  have b3 : ∀ p, pr2 p → o.pid = some p := fun p hp => b p (b2 p hp)
  simp only [xExec] at he
  by_cases hx : x.ok = true
  · rw [if_pos hx] at he
    subst he
    exact ⟨rfl, (fun n hn => nomatch hn), ok_arm (own_open (k := x.n) rfl rfl a2 rfl) (pr_same rfl b3 rfl) (ar_none rfl c3) (fun h => nomatch h) (hr _ hk)⟩
  · rw [if_neg hx] at he
    subst he
    exact ⟨rfl, (fun n hn => nomatch hn), .done ⟨own_same (o := { o with fd := none }) rfl rfl (none_iff a2) rfl, pr_same rfl b3 rfl, fun t' w h => absurd h (ar_none rfl c3 t' w),
      fun t' h => absurd h (ar_none rfl c3 t' _), hr _ hk⟩⟩

/-- `open_logfile_obj` -/
theorem ok_log (hk : o.kind = .logfile) (h : XGood o own pr ar) : XOk o own pr ar v [.look, .lOpen] := by
  have hr : ∀ o : XObj, o.kind = .logfile → XRest o := by intro o hk; unfold XRest; simp only [hk]
  refine ok_look h.fds fun own1 pr1 ar1 a b c => ok_step fun x t e he _ _ => ?_
  simp only [xExec] at he
  have ht : ∀ {ar1 : Nat → XTimer → Prop} {e : XEff} {t t' w}, (∀ t w, ar1 t w → ar t w) → e.arms = none → arAfter ar1 t e t' w → ar t' w := by
    intro ar1 e t t' w c he h
    rcases h with h | h
    · exact c _ _ h.1
    · rw [he] at h; cases h.2
  have hp : ∀ {pr1 : Nat → Prop} {e : XEff} {p}, (∀ p, pr1 p → pr p) → e.spawn = none → prAfter pr1 e p → pr p := by
    intro pr1 e p b he h
    rcases h with h | h
    · exact b _ h.1
    · rw [he] at h; cases h
  by_cases hx : x.ok = true
  · rw [if_pos hx] at he
    subst he
    have ho := own_open (own := own1) (e := { o := { o with fd := some x.n }, loc := v, todo := [.lLock], opens := [x.n] }) (k := x.n) rfl rfl a rfl
    refine ⟨rfl, (fun n hn => nomatch hn), ok_step fun x2 t2 e2 he2 _ _ => ?_⟩
    simp only [xExec] at he2
    by_cases hx2 : x2.ok = true
    · rw [if_pos hx2] at he2
      subst he2
      refine ⟨rfl, (fun n hn => nomatch hn), .done ⟨own_same (o := { o with fd := some x.n }) rfl rfl ho rfl, fun p h' => ?_, fun t' w h' => ?_, fun t' h' => ?_, hr _ hk⟩⟩
      · exact h.kids p (hp (fun p => hp b rfl) rfl h')
      · exact h.tim _ _ (ht (fun t w => ht c rfl) rfl h')
      · exact h.arc _ (ht (fun t w => ht c rfl) rfl h')
    · rw [if_neg hx2] at he2
      subst he2
      refine ⟨rfl, (fun n hn => nomatch hn), ok_close (own_same (o := { o with fd := some x.n }) rfl rfl ho rfl) fun own3 pr3 ar3 a3 b3 c3 => .done ⟨none_iff a3, fun p h' => ?_, fun t' w h' => ?_, fun t' h' => ?_, hr _ hk⟩⟩
      · exact h.kids p (hp (fun p => hp b rfl) rfl (b3 p h'))
      · exact h.tim _ _ (ht (fun t w => ht c rfl) rfl (c3 _ _ h'))
      · exact h.arc _ (ht (fun t w => ht c rfl) rfl (c3 _ _ h'))
  · rw [if_neg hx] at he
    subst he
    refine ⟨rfl, (fun n hn => nomatch hn), .done ⟨own_same (o := { o with fd := none }) rfl rfl (none_iff a) rfl, fun p h' => ?_, fun t' w h' => ?_, fun t' h' => ?_, hr _ hk⟩⟩
    · exact h.kids p (hp b rfl h')
    · exact h.tim _ _ (ht c rfl h')
    · exact h.arc _ (ht c rfl h')

theorem iConn_up {x : XAns} {t : Nat} (h : o.state = .up) : xExec o v x t .iConn = { o, loc := v } := by
  cases o; simp only at h; subst h; rfl

theorem iConn_down {x : XAns} {t : Nat} (h : o.state = .down) :
    xExec o v x t .iConn = { o := { o with timer := some t, state := if x.ok then .pending else .down }, loc := v, arms := some .connect, cancels := o.timer } := by
  cases o; simp only at h; subst h; rfl

theorem iConn_pending {x : XAns} {t : Nat} (h : o.state = .pending) :
    xExec o v x t .iConn = if x.ok then { o := { o with timer := some t, state := .up, fd := some x.n }, loc := v, opens := [x.n], arms := some .stable, cancels := o.timer }
      else { o := { o with timer := some t, state := .down }, loc := v, arms := some .connect, cancels := o.timer } := by
  cases o; simp only at h; subst h; rfl

/-- `connect_ipmi_obj` -/
theorem ok_iConn (hk : o.kind = .ipmi) (h : XGood o own pr ar) : XOk o own pr ar v [.iConn] := by
  have hr := h.rest
  unfold XRest at hr
  simp only [hk] at hr
  refine ok_step fun x t e he _ _ => ?_
  cases st : o.state with
  | up =>
    rw [iConn_up st] at he
    subst he
    refine ⟨rfl, (fun n hn => nomatch hn), .done ⟨own_same rfl rfl h.fds rfl, pr_same rfl h.kids rfl, ar_same rfl rfl h.tim, fun t' h' => ?_, h.rest⟩⟩
    rcases h' with h' | h'
    · exact h.arc _ h'.1
    · cases h'.2
  | down =>
    rw [iConn_down st] at he
    subst he
    have hne : (if x.ok = true then ConnState.pending else .down) ≠ .up := by split <;> (intro h; cases h)
    have n := ar_new (e := { o := { o with timer := some t, state := if x.ok then .pending else .down }, loc := v, arms := some .connect, cancels := o.timer }) (ar := ar) (t := t) h.tim rfl
    refine ⟨rfl, (fun n hn => nomatch hn), .done ⟨own_same rfl rfl h.fds rfl, pr_same rfl h.kids rfl, n.1, fun t' h' => hne, ?_⟩⟩
    unfold XRest
    simp only [hk]
    exact fun _ => hr (by rw [st]; intro h; cases h)
  | pending =>
    have hfd := hr (by rw [st]; intro h; cases h)
    rw [iConn_pending st] at he
    by_cases hx : x.ok = true
    · rw [if_pos hx] at he
      subst he
      have n := ar_new (e := { o := { o with timer := some t, state := .up, fd := some x.n }, loc := v, opens := [x.n], arms := some .stable, cancels := o.timer }) (ar := ar) (t := t) h.tim rfl
      refine ⟨rfl, (fun n hn => nomatch hn), .done ⟨own_open (k := x.n) rfl rfl (fun n hn => ?_) rfl, pr_same rfl h.kids rfl, n.1, fun t' h' => ?_, ?_⟩⟩
      · rw [h.fds, hfd] at hn; cases hn
      · have := n.2 _ _ h'; cases this
      · unfold XRest
        simp only [hk]
        exact fun h => absurd rfl h
    · rw [if_neg hx] at he
      subst he
      have n := ar_new (e := { o := { o with timer := some t, state := .down }, loc := v, arms := some .connect, cancels := o.timer }) (ar := ar) (t := t) h.tim rfl
      refine ⟨rfl, (fun n hn => nomatch hn), .done ⟨own_same rfl rfl h.fds rfl, pr_same rfl h.kids rfl, n.1, fun t' h' => (fun h => by cases h), ?_⟩⟩
      unfold XRest
      simp only [hk]
      exact fun _ => hfd

/-- `disconnect_ipmi_obj`, then `connect_ipmi_obj` -/
theorem ok_iDisc (hk : o.kind = .ipmi) (h : XGood o own pr ar) : XOk o own pr ar v [.iDisc, .iConn] := by
  refine ok_step fun x t e he _ _ => ?_
  simp only [xExec] at he
  subst he
  refine ⟨rfl, fun n hn => ?_, ok_iConn hk ⟨fun n => ?_, pr_same rfl h.kids rfl, fun t' w h' => absurd h' (ar_cancel (o := o) rfl rfl h.tim t' w), fun t' h' => absurd h' (ar_cancel (o := o) rfl rfl h.tim t' _), ?_⟩⟩
  · rw [h.fds]; exact Option.mem_toList.1 hn
  · unfold ownAfter
    constructor
    · rintro (⟨hn, hc⟩ | hn)
      · rw [h.fds] at hn; exact absurd (Option.mem_toList.2 hn) hc
      · cases hn
    · intro hn; cases hn
  · unfold XRest
    simp only [hk]
    exact fun _ => trivial

/-- A step that changes nothing. -/
theorem good_same (h : XGood o own pr ar) {e : XEff} {t : Nat} (ho : e.o = o) (hc : e.closes = []) (hp : e.opens = []) (hs : e.spawn = none) (ha : e.arms = none) :
    XGood e.o (ownAfter own e) (prAfter pr e) (arAfter ar t e) := by
  refine ⟨own_same hc hp h.fds (by rw [ho]), pr_same hs h.kids (by rw [ho]), ar_same ha (by rw [ho]) h.tim, fun t' h' => ?_, by rw [ho]; exact h.rest⟩
  rcases h' with h' | h'
  · rw [ho]; exact h.arc _ h'.1
  · rw [ha] at h'; cases h'.2

/-- `reopen_obj` -/
theorem ok_open (h : XGood o own pr ar) : XOk o own pr ar v [.open] := by
  refine ok_step fun x t e he _ _ => ?_
  have hg := good_same (e := xExec o v x t .open) (t := t) h rfl rfl rfl rfl rfl
  subst he
  refine ⟨rfl, (fun n hn => nomatch hn), ?_⟩
  generalize ownAfter own (xExec o v x t .open) = own' at *
  generalize prAfter pr (xExec o v x t .open) = pr' at *
  generalize arAfter ar t (xExec o v x t .open) = ar' at *
  have ho : (xExec o v x t .open).o = o := rfl
  have hv : (xExec o v x t .open).loc = v := rfl
  rw [ho] at hg
  rw [ho, hv, List.append_nil]
  have hr := hg.rest
  unfold XRest at hr
  simp only [xExec]
  cases hk : o.kind with
  | process => exact ok_process hk hg.fds hg.kids hg.tim hg.rest
  | telnet =>
    simp only [hk] at hr
    by_cases hs : o.state = .up
    · show XOk _ _ _ _ _ (if o.state = .up then _ else _)
      rw [if_pos hs]
      exact ok_disc (.inl hk) hg.fds hg.kids hg.tim
    · show XOk _ _ _ _ _ (if o.state = .up then _ else _)
      rw [if_neg hs]
      exact ok_tConn hk hs hg.fds hg.kids hg.tim hr
  | unixsock =>
    simp only [hk] at hr
    by_cases hs : o.state = .up
    · show XOk _ _ _ _ _ (if o.state = .up then _ else _)
      rw [if_pos hs]
      exact ok_disc (.inr hk) hg.fds hg.kids hg.tim
    · show XOk _ _ _ _ _ (if o.state = .up then _ else _)
      rw [if_neg hs]
      exact ok_uConn hk hg.fds hg.kids hg.tim (hr hs)
  | serial => exact ok_serial hk hg
  | test => exact ok_test hk hg
  | logfile => exact ok_log hk hg
  | ipmi =>
    cases hs : o.state with
    | up => exact ok_iDisc hk hg
    | down => exact ok_iConn hk hg
    | pending => exact .done hg

/-- `check_console_state` -/
theorem ok_check (h : XGood o own pr ar) : XOk o own pr ar v [.check] := by
  refine ok_step fun x t e he _ _ => ?_
  have hg := good_same (e := xExec o v x t .check) (t := t) h rfl rfl rfl rfl rfl
  have key : (xExec o v x t .check).todo = [] ∨ (xExec o v x t .check).todo = [.open] := by
    simp only [xExec]
    cases o.kind <;> simp only [true_or] <;> split <;> simp
  subst he
  refine ⟨rfl, (fun n hn => nomatch hn), ?_⟩
  rw [List.append_nil]
  rcases key with k | k <;> rw [k]
  · exact .done hg
  · exact ok_open hg

/-- `shutdown_obj` -/
theorem ok_shutdown (h : XGood o own pr ar) : XOk o own pr ar v [.shutdown] := by
  refine ok_step fun x t e he _ _ => ?_
  have hg := good_same (e := xExec o v x t .shutdown) (t := t) h rfl rfl rfl rfl rfl
  subst he
  refine ⟨rfl, (fun n hn => nomatch hn), ?_⟩
  rw [List.append_nil]
  have hcl : ∀ own' pr' ar', (∀ n, ¬ own' n) → (∀ p, pr' p → prAfter pr (xExec o v x t .shutdown) p) → (∀ t' w, ar' t' w → arAfter ar t (xExec o v x t .shutdown) t' w) →
      XGood { o with fd := none } own' pr' ar' := by
    intro own' pr' ar' a b c
    refine ⟨none_iff a, fun p hp => hg.kids p (b p hp), fun t' w h' => hg.tim t' w (c t' w h'), fun t' h' => hg.arc t' (c _ _ h'), ?_⟩
    have := h.rest
    unfold XRest at *
    cases hk : o.kind <;> simp only [hk] at this ⊢ <;> first | exact ⟨this.1, fun h => ⟨trivial, (this.2 h).2⟩⟩ | exact fun _ => trivial
  by_cases hf : o.fd = none
  · have : (xExec o v x t .shutdown).todo = [] := by simp only [xExec]; rw [if_pos hf]
    rw [this]
    exact .done hg
  · by_cases hk : o.kind = .logfile
    · have : (xExec o v x t .shutdown).todo = [.close, .clear] := by simp only [xExec]; rw [if_neg hf, if_pos hk]
      rw [this]
      exact ok_close hg.fds fun own' pr' ar' a b c => .done (hcl own' pr' ar' a b c)
    · have : (xExec o v x t .shutdown).todo = [.close, .clear, .open] := by simp only [xExec]; rw [if_neg hf, if_neg hk]
      rw [this]
      exact ok_close hg.fds fun own' pr' ar' a b c => ok_open (hcl own' pr' ar' a b c)

/-- Every call. -/
theorem ok_call (c : XCall) (h : XGood o own pr ar) : XOk o own pr ar v (c.steps o.kind) := by
  cases c with
  | «open» => exact ok_open h
  | shutdown => exact ok_shutdown h
  | check => exact ok_check h
  | engine =>
    cases hk : o.kind
    case ipmi => exact ok_iConn hk h
    all_goals exact .done h

/-- Every timer. -/
theorem ok_fire {t : Nat} {w : XTimer} (h : XGood o own pr ar) (hw : ar t w) : XOk o own pr (fun t' w' => ar t' w' ∧ t' ≠ t) v (w.steps o.kind) := by
  have h0 : ∀ t' w', ¬ (ar t' w' ∧ t' ≠ t) := by
    rintro t' w' ⟨ha, hne⟩
    have e1 := h.tim _ _ ha
    have e2 := h.tim _ _ hw
    rw [e1] at e2
    exact hne (Option.some.inj e2)
  have hg : XGood o own pr (fun t' w' => ar t' w' ∧ t' ≠ t) := ⟨h.fds, h.kids, fun t' w' h' => absurd h' (h0 t' w'), fun t' h' => absurd h' (h0 t' _), h.rest⟩
  cases w with
  | stable =>
    show XOk _ _ _ _ _ [.stable]
    refine ok_step fun x t e he _ _ => ?_
    simp only [xExec] at he
    subst he
    refine ⟨rfl, (fun n hn => nomatch hn), .done ⟨own_same rfl rfl h.fds rfl, pr_same rfl h.kids rfl, fun t' w' h' => absurd h' (ar_none rfl h0 t' w'), fun t' h' => absurd h' (ar_none rfl h0 t' _), ?_⟩⟩
    exact h.rest
  | data =>
    show XOk _ _ _ _ _ [.tRead]
    refine ok_step fun x t e he _ _ => ?_
    simp only [xExec] at he
    subst he
    exact ⟨rfl, (fun n hn => nomatch hn), ok_arm (own_same rfl rfl h.fds rfl) (pr_same rfl h.kids rfl) (ar_none rfl h0) (fun h => nomatch h) h.rest⟩
  | connect =>
    have hs := h.arc _ hw
    have hr := h.rest
    unfold XRest at hr
    cases hk : o.kind
    case telnet => simp only [hk] at hr; exact ok_tConn hk hs hg.fds hg.kids hg.tim hr
    case unixsock => simp only [hk] at hr; exact ok_uConn hk hg.fds hg.kids hg.tim (hr hs)
    case ipmi => exact ok_iConn hk hg
    all_goals exact ok_open hg

end Conman
