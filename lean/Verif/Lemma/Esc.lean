import Verif.Model.Esc
import Verif.Spec.Session

namespace Conman
open Spec

/-- Streaming form of the unescape loop. -/
def unescRef (esc : Bool) : List UInt8 → Bool × List UInt8 × List UInt8
  | [] => (esc, [], [])
  | c :: cs =>
    if esc then
      if c = escChar then
        let (e, d, a) := unescRef false cs; (e, c :: d, a)
      else
        let (e, d, a) := unescRef false cs; (e, d, c :: a)
    else if c = escChar then unescRef true cs
    else let (e, d, a) := unescRef false cs; (e, c :: d, a)

theorem take_set_succ (l : List α) (q : Nat) (c : α) (h : q < l.length) :
    (l.set q c).take (q + 1) = l.take q ++ [c] := by
  rw [List.take_add_one, List.take_set, List.set_eq_of_length_le (by simp; omega)]
  simp [h]

theorem drop_set_lt (l : List α) (q p : Nat) (c : α) (h : q < p) :
    (l.set q c).drop p = l.drop p := by
  rw [List.drop_set]; simp [h]

theorem unescLoop_eq (buf : List UInt8) (p q : Nat) (esc : Bool) (acts : List UInt8)
    (hq : q ≤ p) (hp : p ≤ buf.length) :
    (unescLoop buf p q esc acts).gotEscape = (unescRef esc (buf.drop p)).1 ∧
    (unescLoop buf p q esc acts).data = buf.take q ++ (unescRef esc (buf.drop p)).2.1 ∧
    (unescLoop buf p q esc acts).acts = acts ++ (unescRef esc (buf.drop p)).2.2 ∧
    (unescLoop buf p q esc acts).len ≤ buf.length ∧
    (unescLoop buf p q esc acts).buf.length = buf.length := by
  induction h : buf.length - p generalizing buf p q esc acts with
  | zero =>
    have hlt : ¬ p < buf.length := by omega
    rw [unescLoop]
    simp only [hlt, dite_false]
    have : buf.drop p = [] := List.drop_eq_nil_of_le (by omega)
    simp [this, unescRef, Unesc.data]; omega
  | succ n ih =>
    have hlt : p < buf.length := by omega
    have hdrop : buf.drop p = buf[p] :: buf.drop (p + 1) := List.drop_eq_getElem_cons hlt
    rw [unescLoop, hdrop]
    simp only [hlt, dite_true]
    have key : ∀ c e a, (unescLoop (buf.set q c) (p+1) (q+1) e a).gotEscape =
          (unescRef e (buf.drop (p+1))).1 ∧
        (unescLoop (buf.set q c) (p+1) (q+1) e a).data =
          buf.take q ++ c :: (unescRef e (buf.drop (p+1))).2.1 ∧
        (unescLoop (buf.set q c) (p+1) (q+1) e a).acts =
          a ++ (unescRef e (buf.drop (p+1))).2.2 ∧
        (unescLoop (buf.set q c) (p+1) (q+1) e a).len ≤ buf.length ∧
        (unescLoop (buf.set q c) (p+1) (q+1) e a).buf.length = buf.length := by
      intro c e a
      have := ih (buf.set q c) (p+1) (q+1) e a (by omega) (by simp; omega) (by simp; omega)
      rw [drop_set_lt _ _ _ _ (by omega), take_set_succ _ _ _ (by omega)] at this
      simpa using this
    have key2 : ∀ e a, _ := fun e a => ih buf (p+1) q e a (by omega) (by omega) (by omega)
    by_cases he : esc = true
    · subst he
      by_cases hc : buf[p] = escChar
      · simp only [hc, if_true, unescRef]
        exact key _ _ _
      · simp only [hc, if_true, if_false, unescRef]
        have := key2 false (acts ++ [buf[p]])
        simpa using this
    · have he : esc = false := by simpa using he
      subst he
      by_cases hc : buf[p] = escChar
      · simp only [hc, if_true, unescRef]
        simpa using key2 true acts
      · simp only [hc, if_false, unescRef]
        simpa using key buf[p] false acts

theorem processClientEscapes_eq (esc : Bool) (src : List UInt8) :
    ((processClientEscapes esc src).gotEscape, (processClientEscapes esc src).data,
      (processClientEscapes esc src).acts) = unescRef esc src := by
  have := unescLoop_eq src 0 0 esc [] (by omega) (by omega)
  simp only [List.drop_zero, List.take_zero, List.nil_append] at this
  simp [processClientEscapes, this]

theorem unescRef_append (esc : Bool) (a b : List UInt8) :
    unescRef esc (a ++ b) =
      ((unescRef (unescRef esc a).1 b).1, (unescRef esc a).2.1 ++ (unescRef (unescRef esc a).1 b).2.1,
       (unescRef esc a).2.2 ++ (unescRef (unescRef esc a).1 b).2.2) := by
  induction a generalizing esc with
  | nil => simp [unescRef]
  | cons c cs ih =>
    simp only [List.cons_append, unescRef]
    split
    · split <;> simp [ih]
    · split <;> simp [ih]

theorem unescChunks_eq (esc : Bool) (chunks : List (List UInt8)) :
    unescChunks esc chunks = unescRef esc chunks.flatten := by
  induction chunks generalizing esc with
  | nil => rfl
  | cons c cs ih =>
    have h := processClientEscapes_eq esc c
    rw [List.flatten_cons, unescRef_append, ← h]
    simp [unescChunks, ih]

/-! ### client -/

theorem stuffLoop_append (a b : List UInt8) :
    stuffLoop (a ++ b) a.length = a.flatMap (fun c => if c = escChar then [c, c] else [c]) ++ b := by
  induction h : a.length generalizing a b with
  | zero => have : a = [] := by simpa using h
            simp [this, stuffLoop]
  | succ n ih =>
    have hne : a ≠ [] := by intro h'; simp [h'] at h
    obtain ⟨a', x, rfl⟩ : ∃ l x, a = l ++ [x] :=
      ⟨a.dropLast, a.getLast hne, (List.dropLast_concat_getLast hne).symm⟩
    have hl : a'.length = n := by simpa using h
    rw [stuffLoop]
    have hg : (a' ++ [x] ++ b)[n]? = some x := by simp [← hl]
    rw [hg]
    by_cases hx : x = escChar
    · rw [if_pos (by simp [hx])]
      have : List.take (n + 1) (a' ++ [x] ++ b) ++ List.drop n (a' ++ [x] ++ b) =
          a' ++ ([x, x] ++ b) := by
        subst hl
        rw [List.take_left' (by simp), List.append_assoc, List.append_assoc, List.drop_left]
        simp
      rw [this, ih a' _ hl]
      simp [hx]
    · rw [if_neg (by simp [hx])]
      rw [List.append_assoc, ih a' _ hl]
      simp [hx]

theorem stuffLoop_eq (a : List UInt8) :
    stuffLoop a a.length = a.flatMap (fun c => if c = escChar then [c, c] else [c]) := by
  simpa using stuffLoop_append a []

theorem unescRef_stuff (a : List UInt8) :
    unescRef false (a.flatMap (fun c => if c = escChar then [c, c] else [c])) = (false, a, []) := by
  induction a with
  | nil => rfl
  | cons c cs ih =>
    rw [List.flatMap_cons]
    by_cases hc : c = escChar
    · simp [hc, unescRef, ih]
    · simp [hc, unescRef, ih]

/-- The client's state matches the user's view of the session. -/
structure Rel (s : CState) (v : View) : Prop where
  rw : s.wrClosed = false → (v.rw = true ↔ s.cmd = .connect)
  bcast : v.bcast = s.bcast
  canReset : v.canReset = s.reset
  closed : v.closed = s.wrClosed
  done : s.done = true → s.wrClosed = true

theorem keys_done {s : CState} (h : s.done = true) (ks : List UInt8) : s.keys ks = (s, []) := by
  induction ks with
  | nil => rfl
  | cons c cs ih => simp [CState.keys, CState.key, h, ih]

theorem View.run_closed {v : View} (h : v.closed = true) (ks : List Key) :
    v.run ks = (v, [], []) := by
  induction ks with
  | nil => rfl
  | cons k ks ih => cases k <;> simp [View.run, View.step, h, ih]

theorem View.run_append (v : View) (a b : List Key) :
    v.run (a ++ b) = (((v.run a).1.run b).1, (v.run a).2.1 ++ ((v.run a).1.run b).2.1,
      (v.run a).2.2 ++ ((v.run a).1.run b).2.2) := by
  induction a generalizing v with
  | nil => simp [View.run]
  | cons k ks ih => simp [View.run, ih]

theorem keys_append (s : CState) (a b : List UInt8) :
    s.keys (a ++ b) = (((s.keys a).1.keys b).1, (s.keys a).2 ++ ((s.keys a).1.keys b).2) := by
  induction a generalizing s with
  | nil => simp [CState.keys]
  | cons k ks ih => simp [CState.keys, ih]

/-- One or two data bytes. -/
theorem put_sim {s : CState} {v : View} (hr : Rel s v) (bytes : List UInt8) :
    Rel (s.put bytes).1 (v.run (bytes.map Key.data)).1 ∧
    unescRef false (s.put bytes).2 =
      (false, (v.run (bytes.map Key.data)).2.1, (v.run (bytes.map Key.data)).2.2) ∧
    (s.put bytes).1.inEsc = s.inEsc ∧ (s.put bytes).1.esc = s.esc := by
  have hrun : v.run (bytes.map Key.data) =
      (v, if v.rw = true ∧ v.closed = false then bytes else [], []) := by
    induction bytes with
    | nil => simp [View.run]
    | cons b bs ih =>
      simp only [List.map_cons, View.run, View.step, ih]
      by_cases h1 : v.rw = true <;> by_cases h2 : v.closed = true <;> simp [h1, h2]
  rw [hrun]
  unfold CState.put
  by_cases hc : s.cmd = .connect
  · rw [if_pos hc]
    unfold CState.send
    by_cases hw : s.wrClosed = true
    · rw [if_pos hw]
      refine ⟨⟨fun h => by simp [hw] at h, hr.bcast, hr.canReset, hr.closed, fun _ => hw⟩, ?_, rfl, rfl⟩
      have := hr.closed
      simp [unescRef, this, hw]
    · have hw' : s.wrClosed = false := by simpa using hw
      rw [if_neg hw]
      refine ⟨hr, ?_, rfl, rfl⟩
      rw [stuffLoop_eq, unescRef_stuff, hr.closed, hw', (hr.rw hw').2 hc]
      simp
  · rw [if_neg hc]
    refine ⟨hr, ?_, rfl, rfl⟩
    by_cases hw : s.wrClosed = true
    · have := hr.closed; simp [unescRef, this, hw]
    · have hw' : s.wrClosed = false := by simpa using hw
      have : ¬ v.rw = true := fun h => hc ((hr.rw hw').1 h)
      simp [unescRef, this]

theorem escape_none_iff (s : CState) (c : UInt8) : s.escape c = none ↔ c ∉ cmdLetters := by
  constructor
  · intro h hm
    simp only [cmdLetters, List.mem_cons, List.not_mem_nil, or_false] at hm
    rcases hm with rfl | rfl | rfl | rfl | rfl | rfl | rfl | rfl | rfl | rfl | rfl | rfl | rfl <;>
      simp [CState.escape] at h
  · intro hm
    simp only [cmdLetters, List.mem_cons, List.not_mem_nil, or_false, not_or] at hm
    simp [CState.escape, hm]

theorem escape_sim {s : CState} {v : View} (hr : Rel s v) (hnd : s.done = false) {c : UInt8}
    {r : CState × List UInt8} (he : s.escape c = some r) :
    Rel r.1 (v.step (.cmd c)).1 ∧
    unescRef false r.2 = (false, (v.step (.cmd c)).2.1, (v.step (.cmd c)).2.2) ∧
    r.1.inEsc = s.inEsc ∧ r.1.esc = s.esc := by
  have hm : c ∈ cmdLetters := by
    apply Decidable.byContradiction
    intro h
    rw [(escape_none_iff s c).2 h] at he; simp at he
  obtain ⟨esc, inEsc, cmd, bcast, force, join, quiet, reset, echo, wrClosed, done⟩ := s
  obtain ⟨rw', bcast', canReset', closed'⟩ := v
  obtain ⟨h1, h2, h3, h4, h5⟩ := hr
  simp only at h1 h2 h3 h4 h5 hnd
  subst h2 h3 h4 hnd
  simp only [cmdLetters, List.mem_cons, List.not_mem_nil, or_false] at hm
  have hcmd : cmd = .connect ∨ cmd = .monitor := by cases cmd <;> simp
  rcases hm with rfl | rfl | rfl | rfl | rfl | rfl | rfl | rfl | rfl | rfl | rfl | rfl | rfl <;>
    rcases hcmd with rfl | rfl <;> cases closed' <;> cases bcast' <;> cases canReset' <;>
    cases rw' <;> simp at h1 <;>
    simp [CState.escape, CState.sendEsc, CState.send] at he <;> subst he <;>
    simp [View.step, unescRef, escChar] <;> constructor <;> simp

theorem session_sim (ks : List UInt8) (s : CState) (v : View) (hr : Rel s v)
    (he : s.esc < 0x80) (hi : s.inEsc = false) :
    Rel (s.keys ks).1 (v.run (parseKeys s.esc ks)).1 ∧
    unescRef false (s.keys ks).2 =
      (false, (v.run (parseKeys s.esc ks)).2.1, (v.run (parseKeys s.esc ks)).2.2) := by
  by_cases hd : s.done = true
  · rw [keys_done hd, View.run_closed (by rw [hr.closed]; exact hr.done hd)]
    exact ⟨hr, rfl⟩
  · have hd' : s.done = false := by simpa using hd
    match ks with
    | [] => exact ⟨hr, rfl⟩
    | [b] =>
      by_cases hb : b = s.esc
      · subst hb
        simp only [CState.keys, CState.key, hd', hi, parseKeys, he]
        simp
        exact ⟨⟨hr.rw, hr.bcast, hr.canReset, hr.closed, fun h => by simp at h⟩, rfl⟩
      · have := put_sim hr [b]
        simp only [List.map_cons, List.map_nil] at this
        simp only [CState.keys, CState.key, hd', hi, parseKeys, hb, if_false, false_and]
        simp
        exact ⟨this.1, this.2.1⟩
    | b :: c :: rest =>
      by_cases hb : b = s.esc
      · subst hb
        -- the first key enters escape mode, the second completes the sequence
        have hk1 : s.key s.esc = ({ s with inEsc := true }, []) := by
          simp [CState.key, hd', hi, he]
        have hr' : Rel { s with inEsc := false } v :=
          ⟨hr.rw, hr.bcast, hr.canReset, hr.closed, hr.done⟩
        have hs' : ({ s with inEsc := false } : CState) = s := by
          cases s; simp only at hi; subst hi; rfl
        -- result of the second key
        obtain ⟨ev, hev, hrel, hout, hin, hesc⟩ : ∃ ev, parseKeys s.esc (s.esc :: c :: rest) =
            ev ++ parseKeys s.esc rest ∧
            Rel (CState.key { s with inEsc := true } c).1 (v.run ev).1 ∧
            unescRef false (CState.key { s with inEsc := true } c).2 =
              (false, (v.run ev).2.1, (v.run ev).2.2) ∧
            (CState.key { s with inEsc := true } c).1.inEsc = false ∧
            (CState.key { s with inEsc := true } c).1.esc = s.esc := by
          have hkk : CState.key { s with inEsc := true } c =
              match s.escape c with
              | some r => r
              | none => if c = s.esc ∧ s.esc < 0x80 then s.put [c] else s.put [s.esc, c] := by
            simp only [CState.key]
            rw [if_neg hd, if_neg (by simp), if_pos trivial, hs']
            rfl
          rw [hkk]
          cases hesc : s.escape c with
          | some r =>
            have hm : c ∈ cmdLetters := by
              apply Decidable.byContradiction
              intro h
              rw [(escape_none_iff s c).2 h] at hesc; simp at hesc
            have := escape_sim hr hd' hesc
            refine ⟨[.cmd c], by simp [parseKeys, hm], ?_, ?_, ?_, ?_⟩
            · simpa [View.run] using this.1
            · simpa [View.run] using this.2.1
            · simpa [hi] using this.2.2.1
            · exact this.2.2.2
          | none =>
            have hm := (escape_none_iff s c).1 hesc
            by_cases hc : c = s.esc
            · have := put_sim hr [c]
              refine ⟨[.data s.esc], by simp [parseKeys, hc ▸ hm, hc], ?_⟩
              simp only [hc, he, and_self, if_true] at this ⊢
              exact ⟨this.1, this.2.1, by rw [this.2.2.1, hi], this.2.2.2⟩
            · have := put_sim hr [s.esc, c]
              refine ⟨[.data s.esc, .data c], by simp [parseKeys, hm, hc], ?_⟩
              simp only [hc, false_and, if_false]
              exact ⟨this.1, this.2.1, by rw [this.2.2.1, hi], this.2.2.2⟩
        rw [hev, View.run_append]
        have ih := session_sim rest _ _ hrel (by rw [hesc]; exact he) hin
        rw [hesc] at ih
        simp only [CState.keys, hk1, List.nil_append]
        refine ⟨ih.1, ?_⟩
        rw [unescRef_append, hout, ih.2]
      · have hk : s.key b = s.put [b] := by simp [CState.key, hd', hi, hb]
        have hp := put_sim hr [b]
        have hpk : parseKeys s.esc (b :: c :: rest) = [Key.data b] ++ parseKeys s.esc (c :: rest) := by
          simp [parseKeys, hb]
        rw [hpk, View.run_append]
        have ih := session_sim (c :: rest) _ _ hp.1 (by rw [hp.2.2.2]; exact he) (by rw [hp.2.2.1, hi])
        rw [hp.2.2.2] at ih
        rw [CState.keys, hk]
        refine ⟨ih.1, ?_⟩
        simp only
        rw [unescRef_append, hp.2.1, ih.2]
        simp
termination_by ks.length

end Conman
