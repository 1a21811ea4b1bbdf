import Verif.Lemma.PollRun

namespace Conman
open Spec

def inUse (e : PFd) : Bool := decide (e.fd > -1)

/-- What entry `i` of the table is when `m` are the interests. -/
def Ent (pipe : Nat) (m : Nat → UInt16) (i : Nat) (e : PFd) : Prop :=
  if i = pipe then e.fd = pipe ∧ e.ev = pollIn else if m i = 0 then e.fd = -1 ∧ e.ev = 0 else e.fd = i ∧ e.ev = m i

structure FdInv (p : TPoll) (m : Nat → UInt16) : Prop where
  len : p.pipe < p.arr.length
  ent : ∀ i e, p.arr[i]? = some e → Ent p.pipe m i e
  out : ∀ i, p.arr.length ≤ i → m i = 0
  pipe0 : m p.pipe = 0
  maxLt : p.maxFd < p.arr.length
  maxPipe : (p.pipe : Int) ≤ p.maxFd
  maxAll : ∀ i : Nat, p.maxFd < i → m i = 0
  used : p.used + 1 = (p.arr.countP inUse : Int)

theorem FdInv.congr {p q : TPoll} {m : Nat → UInt16} (i : FdInv p m) (h1 : q.arr = p.arr) (h2 : q.pipe = p.pipe) (h3 : q.maxFd = p.maxFd)
    (h4 : q.used = p.used) : FdInv q m := by
  refine ⟨by rw [h1, h2]; exact i.len, ?_, by rw [h1]; exact i.out, by rw [h2]; exact i.pipe0, by rw [h1, h3]; exact i.maxLt, by rw [h2, h3]; exact i.maxPipe,
    by rw [h3]; exact i.maxAll, by rw [h1, h4]; exact i.used⟩
  intro j e he
  rw [h1] at he; rw [h2]; exact i.ent j e he

theorem FdInv.signal {p : TPoll} {m : Nat → UInt16} (i : FdInv p m) : FdInv p.signal m := by
  obtain ⟨_, _, h3, _, h5, h6, h7, _⟩ := signal_timers p
  exact i.congr h5 h7 h6 h3

theorem or_ne {a b : UInt16} (h : b ≠ 0) : a ||| b ≠ 0 := fun e => h (UInt16.or_eq_zero_iff.1 e).2

theorem Ent.other {pipe : Nat} {m m' : Nat → UInt16} {i : Nat} {e : PFd} (h : Ent pipe m i e) (hm : m' i = m i) : Ent pipe m' i e := by
  unfold Ent at *; rw [hm]; exact h

theorem used_count {u : Int} {c : Nat} {a b : Bool} (hu : u + 1 = (c : Int)) (h : a = true → 0 < c) :
    u - (if a = true then 1 else 0) + (if b = true then 1 else 0) + 1 = ((c - (if a = true then 1 else 0) + (if b = true then 1 else 0) : Nat) : Int) := by
  cases a with
  | false => cases b <;> simp <;> omega
  | true => have := h rfl; cases b <;> simp <;> omega

/-- Writing one entry. -/
theorem FdInv.write {p q : TPoll} {m m' : Nat → UInt16} {fd : Nat} {e e' : PFd} (i : FdInv p m) (hfd : fd ≠ p.pipe) (he : p.arr[fd]? = some e)
    (hm : ∀ j, j ≠ fd → m' j = m j) (he' : Ent p.pipe m' fd e') (h1 : q.arr = p.arr.set fd e') (h2 : q.pipe = p.pipe)
    (h3 : q.used = p.used - (if inUse e then 1 else 0) + (if inUse e' then 1 else 0)) (h4 : q.maxFd < p.arr.length) (h5 : (p.pipe : Int) ≤ q.maxFd)
    (h6 : ∀ j : Nat, q.maxFd < j → m' j = 0) : FdInv q m' := by
  have hlt : fd < p.arr.length := by
    rcases Nat.lt_or_ge fd p.arr.length with h | h
    · exact h
    · rw [List.getElem?_eq_none h] at he; simp at he
  have hge : p.arr[fd] = e := by
    rw [List.getElem?_eq_getElem hlt] at he; simpa using he
  refine ⟨by rw [h1, h2, List.length_set]; exact i.len, ?_, ?_, by rw [h2, hm _ (fun e => hfd e.symm)]; exact i.pipe0, by rw [h1, List.length_set]; exact h4,
    by rw [h2]; exact h5, h6, ?_⟩
  · intro j f hj
    rw [h1, List.getElem?_set] at hj
    rw [h2]
    split at hj
    · rename_i hjf
      subst hjf
      cases hj; exact he'
    · rename_i hjf
      exact (i.ent j f hj).other (hm j (fun e => hjf e.symm))
  · intro j hj
    rw [h1, List.length_set] at hj
    rw [hm j (by omega)]
    exact i.out j hj
  · rw [h1, List.countP_set hlt, h3, hge]
    have hu := i.used
    have hpos : inUse e = true → 0 < p.arr.countP inUse := by
      intro h
      exact List.countP_pos_iff.2 ⟨e, List.mem_of_getElem? he, h⟩
    exact used_count hu hpos

theorem setEv_inv {p : TPoll} {m : Nat → UInt16} {fd : Nat} {ev : UInt16} (i : FdInv p m) (hfd : fd ≠ p.pipe) (hlt : fd < p.arr.length) (hev : ev ≠ 0) :
    ∃ q, p.setEv fd ev = some q ∧ FdInv q (fdStep m (.set fd ev)) ∧ (p.blocked = true → fdStep m (.set fd ev) fd ≠ m fd → q.signaled = true) := by
  unfold TPoll.setEv
  have he : p.arr[fd]? = some p.arr[fd] := List.getElem?_eq_getElem hlt
  rw [he]
  dsimp only
  have hent := i.ent fd _ he
  unfold Ent at hent
  rw [if_neg hfd] at hent
  have hm : ∀ j, j ≠ fd → fdStep m (.set fd ev) j = m j := by intro j hj; simp only [fdStep]; rw [if_neg hj]
  have hmf : fdStep m (.set fd ev) fd = m fd ||| ev := by simp [fdStep]
  have hsig : ∀ q : TPoll, q.blocked = p.blocked → p.blocked = true → q.signal.signaled = true := by
    intro q hq hb
    exact (signal_timers q).2.2.2.2.2.2.2.1 (hq.trans hb)
  by_cases h0 : m fd = 0
  · rw [if_pos h0] at hent
    rw [if_pos (by rw [hent.1]; decide)]
    refine ⟨_, rfl, ?_, ?_⟩
    · have hI : FdInv { p with arr := p.arr.set fd { fd := fd, ev := ev, rev := p.arr[fd].rev }, used := p.used + 1, maxFd := if (fd : Int) > p.maxFd then fd else p.maxFd } (fdStep m (.set fd ev)) := by
        refine i.write hfd he hm ?_ rfl rfl ?_ ?_ ?_ ?_
        · unfold Ent
          rw [if_neg hfd, hmf, if_neg (or_ne hev), h0, UInt16.zero_or]; exact ⟨rfl, rfl⟩
        · have h1 : inUse p.arr[fd] = false := by unfold inUse; rw [hent.1]; decide
          have h2 : inUse ({ fd := fd, ev := ev, rev := p.arr[fd].rev } : PFd) = true := by unfold inUse; simp; omega
          rw [h1, h2]; simp
        · dsimp only; have := i.maxLt; split <;> omega
        · dsimp only; have := i.maxPipe; split <;> omega
        · dsimp only
          intro j hj
          have hj2 : p.maxFd < (j : Int) ∧ (fd : Int) < j ∨ p.maxFd < (j : Int) ∧ (fd : Int) ≤ p.maxFd := by
            split at hj <;> omega
          rw [hm j (by omega)]
          exact i.maxAll j (by omega)
      split
      · exact hI
      · exact hI.signal
    · intro hb _
      rw [if_neg (by rw [hent.2]; exact fun e => hev e.symm)]
      refine hsig _ ?_ hb
      rfl
  · rw [if_neg h0] at hent
    rw [if_neg (by rw [hent.1]; omega)]
    split
    · rename_i heq
      refine ⟨_, rfl, ?_, ?_⟩
      · have : fdStep m (.set fd ev) = m := by
          funext j
          by_cases hj : j = fd
          · rw [hj, hmf, ← hent.2]; exact heq.symm
          · exact hm j hj
        rw [this]; exact i
      · intro _ hne
        rw [hmf, ← hent.2] at hne
        exact absurd heq.symm hne
    · refine ⟨_, rfl, FdInv.signal ?_, fun hb _ => hsig _ rfl hb⟩
      refine i.write hfd he hm ?_ rfl rfl ?_ i.maxLt i.maxPipe ?_
      · unfold Ent
        rw [if_neg hfd, hmf, if_neg (or_ne hev)]
        exact ⟨hent.1, by rw [← hent.2]⟩
      · show p.used = p.used - (if inUse p.arr[fd] = true then 1 else 0) + (if inUse p.arr[fd] = true then 1 else 0)
        omega
      · intro j hj
        rw [hm j (fun e => by subst e; exact h0 (i.maxAll j hj))]
        exact i.maxAll j hj

theorem growSize_spec (req : Nat) (hreq : req ≤ 1073741824) : ∀ (f n : Nat), 0 < n → req ≤ n * 2 ^ f → ∃ k, growSize req (f + 1) n = some k ∧ req ≤ k ∧ n ≤ k
  | 0, n, _, h => ⟨n, by rw [growSize, if_neg (by omega)], by omega, Nat.le_refl _⟩
  | f + 1, n, hn, h => by
    rw [growSize]
    by_cases hlt : n < req
    · rw [if_pos hlt, if_pos (by unfold intMax; omega)]
      obtain ⟨k, e, h1, h2⟩ := growSize_spec req hreq f (n * 2) (by omega) (by rw [Nat.mul_assoc, ← Nat.pow_succ']; exact h)
      exact ⟨k, e, h1, by omega⟩
    · rw [if_neg hlt]; exact ⟨n, rfl, by omega, Nat.le_refl _⟩

theorem FdInv.grown {p q : TPoll} {m : Nat → UInt16} {k : Nat} (i : FdInv p m) (h1 : q.arr = p.arr ++ List.replicate k PFd.free) (h2 : q.pipe = p.pipe)
    (h3 : q.maxFd = p.maxFd) (h4 : q.used = p.used) : FdInv q m := by
  have hl : q.arr.length = p.arr.length + k := by rw [h1, List.length_append, List.length_replicate]
  have a := i.len
  have b := i.maxLt
  refine ⟨by rw [h2]; omega, ?_, fun j hj => i.out j (by omega), by rw [h2]; exact i.pipe0, by rw [h3]; omega, by rw [h2, h3]; exact i.maxPipe, by rw [h3]; exact i.maxAll, ?_⟩
  · intro j e hj
    rw [h1, List.getElem?_append] at hj
    rw [h2]
    split at hj
    · exact i.ent j e hj
    · rename_i hge
      rw [List.getElem?_replicate] at hj
      split at hj
      · cases hj
        unfold Ent
        rw [if_neg (by omega), if_pos (i.out j (by omega))]; exact ⟨rfl, rfl⟩
      · simp at hj
  · rw [h1, List.countP_append, List.countP_replicate, h4, i.used]; simp [inUse, PFd.free]

theorem set_inv {p : TPoll} {m : Nat → UInt16} {fd : Nat} {ev : UInt16} {mem : Bool} (i : FdInv p m) (hfd : fd ≠ p.pipe) (hr : fd < 1073741824) :
    ∃ r, p.set fd ev mem = some r ∧
      ((r.2 = 0 ∧ FdInv r.1 (fdStep m (.set fd ev)) ∧ (p.blocked = true → fdStep m (.set fd ev) fd ≠ m fd → r.1.signaled = true)) ∨ (r.2 = -1 ∧ FdInv r.1 m ∧ mem = false ∧ p.arr.length ≤ fd)) := by
  unfold TPoll.set
  by_cases hev : ev = 0
  · rw [if_pos hev]
    refine ⟨_, rfl, Or.inl ⟨rfl, ?_, ?_⟩⟩
    · have : fdStep m (.set fd ev) = m := by
        funext j; simp only [fdStep]; rw [hev, UInt16.or_zero]; simp
      rw [this]; exact i
    · intro _ hne
      simp [fdStep, hev] at hne
  · rw [if_neg hev]
    by_cases hlt : fd < p.arr.length
    · rw [if_pos hlt]
      obtain ⟨q, e, h1, h2⟩ := setEv_inv i hfd hlt hev
      rw [e, Option.map_some]
      exact ⟨_, rfl, Or.inl ⟨rfl, h1, h2⟩⟩
    · rw [if_neg hlt, if_neg (by unfold intMax; omega)]
      unfold TPoll.grow
      rw [if_neg (by omega)]
      have hlen := i.len
      have hpow : p.arr.length * 2 ^ 31 ≥ 2 ^ 31 := Nat.le_mul_of_pos_left _ (by omega)
      obtain ⟨k, e, h1, h2⟩ := growSize_spec (fd + 1) (by omega) 31 p.arr.length (by omega) (Nat.le_trans (by omega) hpow)
      rw [e, Option.map_some, Option.bind_some]
      have hs := signal_timers p
      cases mem with
      | false => exact ⟨_, rfl, Or.inr ⟨rfl, i.signal, rfl, by omega⟩⟩
      | true =>
        simp only [if_true]
        have hI : FdInv { p.signal with realloced := true, arr := p.arr ++ List.replicate (k - p.arr.length) PFd.free } m :=
          i.grown rfl hs.2.2.2.2.2.2.1 hs.2.2.2.2.2.1 hs.2.2.1
        obtain ⟨q, e, h3, h4⟩ := setEv_inv hI (by dsimp only; rw [hs.2.2.2.2.2.2.1]; exact hfd) (by
          dsimp only; rw [List.length_append, List.length_replicate]; omega) hev
        rw [e, Option.map_some]
        exact ⟨_, rfl, Or.inl ⟨rfl, h3, fun hb => h4 (hs.2.2.2.1.trans hb)⟩⟩

theorem scanDown_spec (arr : List PFd) : ∀ n, n ≤ arr.length → (scanDown arr n < n ∧ -1 ≤ scanDown arr n ∧
    (∀ j : Nat, scanDown arr n < j → j < n → ∀ e, arr[j]? = some e → ¬ e.fd > -1) ∧
    (∀ j : Nat, j < n → (∀ e, arr[j]? = some e → e.fd > -1) → (j : Int) ≤ scanDown arr n))
  | 0, _ => by refine ⟨by simp [scanDown], by simp [scanDown], fun j h1 h2 => by omega, fun j h => by omega⟩
  | n + 1, hn => by
    rw [scanDown]
    have hg : arr[n]? = some arr[n] := List.getElem?_eq_getElem (by omega)
    rw [hg, Option.getD_some]
    by_cases h : arr[n].fd > -1
    · rw [if_pos h]
      exact ⟨by omega, by omega, fun j h1 h2 => by omega, fun j h1 _ => by omega⟩
    · rw [if_neg h]
      obtain ⟨h1, h2, h3, h4⟩ := scanDown_spec arr n (by omega)
      refine ⟨by omega, h2, fun j hj hlt e he => ?_, fun j hj hu => ?_⟩
      · rcases Nat.lt_or_ge j n with hlt' | hge
        · exact h3 j hj hlt' e he
        · have : j = n := by omega
          subst this
          rw [hg] at he
          cases he; exact h
      · rcases Nat.lt_or_ge j n with hlt' | hge
        · exact h4 j hlt' hu
        · have : j = n := by omega
          subst this
          exact absurd (hu _ hg) h

theorem clear_inv {p : TPoll} {m : Nat → UInt16} {fd : Nat} {ev : UInt16} (i : FdInv p m) (hfd : fd ≠ p.pipe) :
    ∃ q, p.clear fd ev = some q ∧ FdInv q (fdStep m (.clear fd ev)) ∧ (p.blocked = true → fdStep m (.clear fd ev) fd ≠ m fd → q.signaled = true) := by
  have hm : ∀ j, j ≠ fd → fdStep m (.clear fd ev) j = m j := by intro j hj; simp only [fdStep]; rw [if_neg hj]
  have hmf : fdStep m (.clear fd ev) fd = m fd &&& ~~~ ev := by simp [fdStep]
  have nochange : m fd &&& ~~~ ev = m fd → ∃ q, some p = some q ∧ FdInv q (fdStep m (.clear fd ev)) ∧
      (p.blocked = true → fdStep m (.clear fd ev) fd ≠ m fd → q.signaled = true) := by
    intro h
    refine ⟨p, rfl, ?_, fun _ hne => ?_⟩
    · have : fdStep m (.clear fd ev) = m := by
        funext j
        by_cases hj : j = fd
        · rw [hj, hmf]; exact h
        · exact hm j hj
      rw [this]; exact i
    · rw [hmf] at hne; exact absurd h hne
  have hzero : m fd = 0 → m fd &&& ~~~ ev = m fd := by intro h; rw [h, UInt16.zero_and]
  have hsig : ∀ q : TPoll, q.blocked = p.blocked → p.blocked = true → q.signal.signaled = true := by
    intro q hq hb
    exact (signal_timers q).2.2.2.2.2.2.2.1 (hq.trans hb)
  unfold TPoll.clear
  by_cases hev : ev = 0
  · rw [if_pos hev]; refine nochange ?_; rw [hev]; simp
  · rw [if_neg hev]
    by_cases hle : (fd : Int) ≤ p.maxFd
    · rw [if_pos hle]
      have hml := i.maxLt
      have hlt : fd < p.arr.length := by omega
      have he : p.arr[fd]? = some p.arr[fd] := List.getElem?_eq_getElem hlt
      rw [he]
      dsimp only
      have hent := i.ent fd _ he
      unfold Ent at hent
      rw [if_neg hfd] at hent
      by_cases h0 : m fd = 0
      · rw [if_pos h0] at hent
        rw [if_neg (by rw [hent.1]; omega)]
        exact nochange (hzero h0)
      · rw [if_neg h0] at hent
        rw [if_pos (by rw [hent.1]; omega), hent.2]
        by_cases h1 : m fd = m fd &&& ~~~ ev
        · rw [if_pos h1]; exact nochange h1.symm
        · rw [if_neg h1]
          have hu : inUse p.arr[fd] = true := by unfold inUse; rw [hent.1]; simp; omega
          by_cases h2 : m fd &&& ~~~ ev = 0
          · rw [if_pos h2]
            refine ⟨_, rfl, FdInv.signal ?_, fun hb _ => hsig _ rfl hb⟩
            have hsc := scanDown_spec (p.arr.set fd { fd := -1, ev := 0, rev := 0 }) fd (by rw [List.length_set]; omega)
            have hmp := i.maxPipe
            have hpl := i.len
            -- the pipe is found if the highest descriptor went
            have hpipe : p.maxFd = fd → (p.pipe : Int) ≤ scanDown (p.arr.set fd { fd := -1, ev := 0, rev := 0 }) fd := by
              intro hmx
              refine hsc.2.2.2 p.pipe (by omega) fun e hep => ?_
              rw [List.getElem?_set, if_neg hfd] at hep
              have := i.ent _ _ hep
              unfold Ent at this
              rw [if_pos rfl] at this
              rw [this.1]; omega
            refine i.write hfd he hm ?_ rfl rfl ?_ ?_ ?_ ?_
            · unfold Ent
              rw [if_neg hfd, hmf, if_pos h2]; exact ⟨rfl, rfl⟩
            · rw [hu]; simp [inUse]
            · dsimp only; split <;> omega
            · dsimp only; split
              · rename_i hmx; exact hpipe hmx
              · exact hmp
            · dsimp only
              intro j hj
              by_cases hjf : j = fd
              · rw [hjf, hmf]; exact h2
              · rw [hm j hjf]
                split at hj
                · rename_i hmx
                  rcases Nat.lt_or_ge fd j with hlt' | hge
                  · exact i.maxAll j (by omega)
                  · have hjl : j < p.arr.length := by omega
                    have hgj : p.arr[j]? = some p.arr[j] := List.getElem?_eq_getElem hjl
                    have hn := hsc.2.2.1 j hj (by omega) p.arr[j] (by rw [List.getElem?_set, if_neg (fun e => hjf e.symm)]; exact hgj)
                    have hej := i.ent j _ hgj
                    unfold Ent at hej
                    by_cases hjp : j = p.pipe
                    · rw [hjp]; exact i.pipe0
                    · rw [if_neg hjp] at hej
                      by_cases hz : m j = 0
                      · exact hz
                      · rw [if_neg hz] at hej
                        exact absurd (show p.arr[j].fd > -1 by rw [hej.1]; omega) hn
                · exact i.maxAll j hj
          · rw [if_neg h2]
            refine ⟨_, rfl, FdInv.signal ?_, fun hb _ => hsig _ rfl hb⟩
            refine i.write hfd he hm ?_ rfl rfl ?_ i.maxLt i.maxPipe ?_
            · unfold Ent
              rw [if_neg hfd, hmf, if_neg h2]
              exact ⟨hent.1, rfl⟩
            · show p.used = p.used - (if inUse p.arr[fd] = true then 1 else 0) + (if inUse p.arr[fd] = true then 1 else 0)
              omega
            · intro j hj
              rw [hm j (fun e => by subst e; exact h0 (i.maxAll j hj))]
              exact i.maxAll j hj
    · rw [if_neg hle]
      exact nochange (hzero (i.maxAll fd (by omega)))

theorem zeroFds_inv {p : TPoll} (h : p.pipe < p.arr.length) : ∃ q, p.zeroFds = some q ∧ FdInv q (fun _ => 0) := by
  unfold TPoll.zeroFds
  rw [if_pos h]
  refine ⟨_, rfl, ?_⟩
  have hl : ((p.arr.map fun _ => PFd.free).set p.pipe { fd := p.pipe, ev := pollIn, rev := 0 }).length = p.arr.length := by simp
  refine ⟨by dsimp only; rw [hl]; exact h, ?_, fun _ _ => rfl, rfl, by dsimp only; rw [hl]; omega, by dsimp only; omega, fun _ _ => rfl, ?_⟩
  · intro i e he
    dsimp only at he ⊢
    rw [List.getElem?_set] at he
    unfold Ent
    split at he
    · rename_i hi
      rw [if_pos (by simpa using h)] at he
      cases he
      rw [if_pos hi.symm]; exact ⟨rfl, rfl⟩
    · rename_i hi
      rw [if_neg (fun e => hi e.symm), if_pos rfl]
      rw [List.getElem?_map] at he
      cases hx : p.arr[i]? with
      | none => rw [hx] at he; simp at he
      | some x => rw [hx, Option.map_some] at he; cases he; exact ⟨rfl, rfl⟩
  · dsimp only
    rw [List.countP_set (by simpa using h), List.countP_map]
    have h0 : List.countP (inUse ∘ fun _ => PFd.free) p.arr = 0 := by
      rw [List.countP_eq_zero]; intro a _; simp [inUse, PFd.free]
    rw [h0]
    have : inUse ({ fd := (p.pipe : Int), ev := pollIn, rev := 0 } : PFd) = true := by unfold inUse; simp; omega
    rw [this]; simp

theorem writeRev_length (K : Nat → UInt16) : ∀ (l : List PFd) (i : Nat), (writeRev K i l).length = l.length
  | [], _ => rfl
  | _ :: l, i => by simp only [writeRev, List.length_cons, writeRev_length K l (i + 1)]

theorem writeRev_get (K : Nat → UInt16) : ∀ (l : List PFd) (i j : Nat), (writeRev K i l)[j]? = (l[j]?).map fun e => { e with rev := K (i + j) }
  | [], _, _ => by simp [writeRev]
  | e :: l, i, j => by
    rw [writeRev]
    cases j with
    | zero => simp
    | succ j =>
      rw [List.getElem?_cons_succ, List.getElem?_cons_succ, writeRev_get K l (i + 1) j]
      congr 1
      funext e; congr 2; omega

theorem writeRev_count (K : Nat → UInt16) : ∀ (l : List PFd) (i : Nat), (writeRev K i l).countP inUse = l.countP inUse
  | [], _ => rfl
  | e :: l, i => by
    rw [writeRev, List.countP_cons, List.countP_cons, writeRev_count K l (i + 1)]; rfl

theorem FdInv.polled {p q : TPoll} {m : Nat → UInt16} {K : Nat → UInt16} {n : Nat} (i : FdInv p m) (h1 : q.arr = writeRev K 0 (p.arr.take n) ++ p.arr.drop n)
    (h2 : q.pipe = p.pipe) (h3 : q.maxFd = p.maxFd) (h4 : q.used = p.used) : FdInv q m := by
  have hl : q.arr.length = p.arr.length := by
    rw [h1, List.length_append, writeRev_length, ← List.length_append, List.take_append_drop]
  refine ⟨by rw [hl, h2]; exact i.len, ?_, by rw [hl]; exact i.out, by rw [h2]; exact i.pipe0, by rw [hl, h3]; exact i.maxLt, by rw [h2, h3]; exact i.maxPipe,
    by rw [h3]; exact i.maxAll, ?_⟩
  · intro j e he
    rw [h2]
    rw [h1, List.getElem?_append, writeRev_length] at he
    split at he
    · rename_i hlt
      rw [writeRev_get, List.getElem?_take] at he
      split at he
      · cases hx : p.arr[j]? with
        | none => rw [hx] at he; simp at he
        | some x => rw [hx, Option.map_some] at he; cases he; exact i.ent j x hx
      · simp at he
    · rename_i hge
      rw [List.getElem?_drop] at he
      have hx : n + (j - (p.arr.take n).length) = j ∨ p.arr.length ≤ n + (j - (p.arr.take n).length) := by
        rw [List.length_take] at hge ⊢; omega
      rcases hx with hx | hx
      · rw [hx] at he; exact i.ent j e he
      · rw [List.getElem?_eq_none hx] at he; simp at he
  · rw [h1, List.countP_append, writeRev_count, ← List.countP_append, List.take_append_drop, h4]; exact i.used

theorem afterPoll_fds (p : TPoll) (ms : Int) (dl now : TV) (n : Int) (K : Nat → UInt16) (t : TV) :
    (afterPoll p ms dl now n K t).s.p.arr = p.arr ∧ (afterPoll p ms dl now n K t).s.p.pipe = p.pipe ∧ (afterPoll p ms dl now n K t).s.p.maxFd = p.maxFd ∧
      (afterPoll p ms dl now n K t).s.p.used = p.used := by
  unfold afterPoll
  split
  · exact ⟨rfl, rfl, rfl, rfl⟩
  · split
    · exact ⟨rfl, rfl, rfl, rfl⟩
    · dsimp only
      cases hk : decide (K p.pipe &&& pollIn ≠ 0)
      · simp only [Bool.false_eq_true, if_false]
        split
        · exact ⟨rfl, rfl, rfl, rfl⟩
        · split
          · exact ⟨rfl, rfl, rfl, rfl⟩
          · split <;> exact ⟨rfl, rfl, rfl, rfl⟩
      · simp only [if_true]
        split
        · exact ⟨rfl, rfl, rfl, rfl⟩
        · split
          · exact ⟨rfl, rfl, rfl, rfl⟩
          · split <;> exact ⟨rfl, rfl, rfl, rfl⟩

end Conman
