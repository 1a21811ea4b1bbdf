import Verif.Model.Locks
import Verif.Lemma.Dec

/-
Invariants of daemons and their locks.
-/
namespace Conman

def DPhase.ino : DPhase → Nat
  | .opened i => i
  | .locked i => i
  | .checked i => i
  | .refused i => i
  | .running i => i

/-- The process has locked the file. -/
def DPhase.hasLock : DPhase → Bool
  | .opened _ => false
  | _ => true

/-- The process has found nobody else. -/
def DPhase.past : DPhase → Bool
  | .checked _ => true
  | .running _ => true
  | _ => false

theorem DPhase.past_hasLock {p : DPhase} (h : p.past = true) : p.hasLock = true := by
  cases p <;> first | rfl | cases h

theorem mem_conflicts {t : List FLock} {pid : Int} {ino : Nat} {l : FLock} : l ∈ lockConflicts t pid ino true ↔ l ∈ t ∧ l.pid ≠ pid ∧ l.ino = ino := by
  unfold lockConflicts
  rw [List.mem_filter]
  simp [and_assoc]

theorem setLock_mem {t t' : List FLock} {pid : Int} {ino : Nat} {wr : Bool} (h : setLock t pid ino wr = some t') (l : FLock) :
    l ∈ t' ↔ (l ∈ t ∧ ¬ (l.pid = pid ∧ l.ino = ino)) ∨ l = ⟨pid, ino, wr⟩ := by
  unfold setLock at h
  split at h
  · cases h
    rw [List.mem_append, List.mem_filter, List.mem_singleton, decide_eq_true_eq]
  · cases h

theorem mem_closeFile {t : List FLock} {pid : Int} {ino : Nat} {l : FLock} : l ∈ closeFile t pid ino ↔ l ∈ t ∧ ¬ (l.pid = pid ∧ l.ino = ino) := by
  unfold closeFile
  rw [List.mem_filter, decide_eq_true_eq]

theorem mem_closeOld {t : List FLock} {pid : Int} {o : Option Nat} {l : FLock} (h : l ∈ t) (hn : ∀ old, o = some old → ¬ (l.pid = pid ∧ l.ino = old)) :
    l ∈ closeOld t pid o := by
  cases o with
  | none => exact h
  | some old => exact mem_closeFile.2 ⟨h, hn old rfl⟩

theorem mem_dropLocks {t : List FLock} {pid : Int} {l : FLock} : l ∈ dropLocks t pid ↔ l ∈ t ∧ l.pid ≠ pid := by
  unfold dropLocks
  rw [List.mem_filter]
  simp

/-- What is reported is a lock in the way, if there is one. -/
theorem testLock_spec (t : List FLock) (pid : Int) (ino : Nat) (pick : Nat) :
    (lockConflicts t pid ino true = [] ∧ testLock t pid ino true pick = 0) ∨ ∃ l ∈ lockConflicts t pid ino true, testLock t pid ino true pick = l.pid := by
  unfold testLock
  generalize lockConflicts t pid ino true = c
  cases c with
  | nil => left; exact ⟨rfl, rfl⟩
  | cons x c =>
    right
    have hlt : pick % (x :: c).length < (x :: c).length := Nat.mod_lt _ (by simp)
    rw [List.getElem?_eq_getElem hlt]
    exact ⟨_, List.getElem_mem hlt, rfl⟩

structure DaemonInv (s : Daemons) : Prop where
  pos : ∀ l ∈ s.locks, 0 < l.pid
  pid : ∀ p, s.phase p ≠ none → 1 < p ∧ p ≤ 2147483647
  held : ∀ p ph, s.phase p = some ph → ph.hasLock = true → ∃ l ∈ s.locks, l.pid = p ∧ l.ino = ph.ino
  excl : ∀ p q a b, s.phase p = some a → s.phase q = some b → a.past = true → b.past = true → a.ino = b.ino → p = q

theorem DaemonInv.init (f : Option Nat) (t : Option (List UInt8)) : DaemonInv { file := f, pidfile := t } :=
  ⟨(fun _ h => by cases h), (fun _ h => absurd rfl h), (fun _ _ h => by cases h), (fun _ _ _ _ h => by cases h)⟩

theorem phase_set (s : Daemons) (pid : Int) (x : Option DPhase) (q : Int) : (s.setPhase pid x).phase q = if q = pid then x else s.phase q := rfl

theorem DaemonInv.ended {s : Daemons} (h : DaemonInv s) (pid : Int) : DaemonInv (s.ended pid) := by
  have ph : ∀ q b, (s.ended pid).phase q = some b → q ≠ pid ∧ s.phase q = some b := by
    intro q b e
    have e : (if q = pid then none else s.phase q) = some b := e
    split at e
    · cases e
    · rename_i hq; exact ⟨hq, e⟩
  refine ⟨?_, ?_, ?_, ?_⟩
  · intro l hl
    exact h.pos l (mem_dropLocks.1 hl).1
  · intro p hp
    obtain ⟨b, hb⟩ := Option.ne_none_iff_exists'.1 hp
    exact h.pid p (by rw [(ph p b hb).2]; intro g; cases g)
  · intro p b e hb
    obtain ⟨h1, h2⟩ := ph p b e
    obtain ⟨l, l1, l2, l3⟩ := h.held p b h2 hb
    exact ⟨l, mem_dropLocks.2 ⟨l1, by rw [l2]; exact h1⟩, l2, l3⟩
  · intro p q a b ha hb
    exact h.excl p q a b (ph p a ha).2 (ph q b hb).2

/-- A process goes on without a change of locks. -/
theorem DaemonInv.next {s : Daemons} (h : DaemonInv s) {pid : Int} {a b : DPhase} (ha : s.phase pid = some a) (hl : b.hasLock = true → a.hasLock = true) (hi : b.ino = a.ino)
    (he : b.past = true → a.past = true ∨ ∀ q c, s.phase q = some c → c.hasLock = true → c.ino = a.ino → q = pid) : DaemonInv (s.setPhase pid (some b)) := by
  have hex : ∀ q c, q ≠ pid → s.phase q = some c → b.past = true → c.past = true → b.ino = c.ino → False := by
    intro q c hq hc hb hcp hi'
    rcases he hb with g | g
    · exact hq (h.excl q pid c a hc ha hcp g (by rw [← hi', hi]))
    · exact hq (g q c hc (DPhase.past_hasLock hcp) (by rw [← hi', hi]))
  refine ⟨h.pos, ?_, ?_, ?_⟩
  · intro p hp
    rw [phase_set] at hp
    split at hp
    · rename_i e; subst e; exact h.pid p (by rw [ha]; intro g; cases g)
    · exact h.pid p hp
  · intro p c e hc
    rw [phase_set] at e
    split at e
    · rename_i e'; subst e'; cases e
      rw [hi]
      exact h.held p a ha (hl hc)
    · exact h.held p c e hc
  · intro p q c d hc hd hcp hdp hi'
    rw [phase_set] at hc hd
    split at hc
    · rename_i e; subst e; cases hc
      split at hd
      · rename_i e; exact e.symm
      · rename_i e; exact (hex q d e hd hcp hdp hi').elim
    · rename_i e1
      split at hd
      · rename_i e; subst e; cases hd
        exact (hex p c e1 hc hdp hcp hi'.symm).elim
      · exact h.excl p q c d hc hd hcp hdp hi'

def DEv.ok : DEv → Prop
  | .other pid _ _ => 0 < pid
  | _ => True

theorem DaemonInv.step {s : Daemons} (h : DaemonInv s) (x : DEv) (hx : x.ok) : DaemonInv (s.step x) := by
  cases x with
  | start pid =>
    rw [Daemons.step]
    split
    · exact h
    · rename_i hc
      have hn : s.phase pid = none := Classical.byContradiction fun g => hc (Or.inr (Or.inr g))
      have h1 : 1 < pid := by
        rcases Int.lt_or_le 1 pid with g | g
        · exact g
        · exact absurd (Or.inl g) hc
      have h2 : pid ≤ 2147483647 := by
        rcases Int.lt_or_le 2147483647 pid with g | g
        · exact absurd (Or.inr (Or.inl g)) hc
        · exact g
      cases hf : s.file with
      | none => exact h
      | some i =>
        have ph : ∀ q b, (if q = pid then some (DPhase.opened i) else s.phase q) = some b → b.hasLock = true → q ≠ pid ∧ s.phase q = some b := by
          intro q b e hb
          split at e
          · cases e; cases hb
          · rename_i hq; exact ⟨hq, e⟩
        refine ⟨?_, ?_, ?_, ?_⟩
        · intro l hl; exact h.pos l (mem_dropLocks.1 hl).1
        · intro p hp
          have hp : (if p = pid then some (DPhase.opened i) else s.phase p) ≠ none := hp
          split at hp
          · rename_i e; subst e; exact ⟨h1, h2⟩
          · exact h.pid p hp
        · intro p b e hb
          obtain ⟨g1, g2⟩ := ph p b e hb
          obtain ⟨l, l1, l2, l3⟩ := h.held p b g2 hb
          exact ⟨l, mem_dropLocks.2 ⟨l1, by rw [l2]; exact g1⟩, l2, l3⟩
        · intro p q a b ha hb hap hbp
          exact h.excl p q a b (ph p a ha (DPhase.past_hasLock hap)).2 (ph q b hb (DPhase.past_hasLock hbp)).2 hap hbp
  | step pid pick =>
    rw [Daemons.step]
    unfold Daemons.advance
    cases hp : s.phase pid with
    | none => exact h
    | some a =>
      cases a with
      | opened i =>
        dsimp only
        cases hs : setLock s.locks pid i false with
        | none => exact h.ended pid
        | some t =>
          dsimp only
          have hm := setLock_mem hs
          have keep : ∀ l ∈ s.locks, ∃ l' ∈ t, l'.pid = l.pid ∧ l'.ino = l.ino := by
            intro l hl
            rcases Decidable.em (l.pid = pid ∧ l.ino = i) with g | g
            · exact ⟨_, (hm _).2 (Or.inr rfl), g.1.symm, g.2.symm⟩
            · exact ⟨l, (hm _).2 (Or.inl ⟨hl, g⟩), rfl, rfl⟩
          have pp := (h.pid pid (by rw [hp]; intro g; cases g)).1
          have h2 : DaemonInv { s with locks := t } := by
            refine ⟨?_, h.pid, ?_, h.excl⟩
            · intro l hl
              rcases (hm l).1 hl with g | rfl
              · exact h.pos l g.1
              · exact Int.lt_trans (by decide) pp
            · intro p b e hb
              obtain ⟨l, l1, l2, l3⟩ := h.held p b e hb
              obtain ⟨l', m1, m2, m3⟩ := keep l l1
              exact ⟨l', m1, by rw [m2, l2], by rw [m3, l3]⟩
          refine ⟨h2.pos, ?_, ?_, ?_⟩
          · intro p e
            have e : (if p = pid then some (DPhase.locked i) else s.phase p) ≠ none := e
            split at e
            · rename_i g; subst g; exact h.pid p (by rw [hp]; intro g; cases g)
            · exact h.pid p e
          · intro p b e hb
            have e : (if p = pid then some (DPhase.locked i) else s.phase p) = some b := e
            by_cases g : p = pid
            · rw [if_pos g] at e
              injection e with e
              subst e
              exact ⟨_, (hm _).2 (Or.inr rfl), g.symm, rfl⟩
            rw [if_neg g] at e
            exact h2.held p b e hb
          · intro p q c d hc hd hcp hdp
            have hc : (if p = pid then some (DPhase.locked i) else s.phase p) = some c := hc
            have hd : (if q = pid then some (DPhase.locked i) else s.phase q) = some d := hd
            split at hc
            · cases hc; cases hcp
            · split at hd
              · cases hd; cases hdp
              · exact h.excl p q c d hc hd hcp hdp
      | refused i => exact h.ended pid
      | locked i =>
        dsimp only
        split
        · exact h.next hp (fun _ => rfl) rfl (fun g => by cases g)
        · rename_i ht
          refine h.next hp (fun _ => rfl) rfl (fun _ => Or.inr ?_)
          intro q c hc hcl hci
          rcases testLock_spec s.locks pid i pick with ⟨g, _⟩ | ⟨l, g1, g2⟩
          · obtain ⟨l, l1, l2, l3⟩ := h.held q c hc hcl
            rcases Decidable.em (q = pid) with e | e
            · exact e
            · have : l ∈ lockConflicts s.locks pid i true := mem_conflicts.2 ⟨l1, by rw [l2]; exact e, by rw [l3, hci]; rfl⟩
              rw [g] at this
              cases this
          · exact absurd (g2 ▸ h.pos l (mem_conflicts.1 g1).1) ht
      | checked i =>
        have := h.next (b := .running i) hp (fun _ => rfl) rfl (fun _ => Or.inl rfl)
        exact ⟨this.pos, this.pid, this.held, this.excl⟩
      | running i => exact h
  | kill pid => exact h.ended pid
  | stop pid =>
    rw [Daemons.step]
    unfold Daemons.stopped
    split
    · have := h.ended pid
      exact ⟨this.pos, this.pid, this.held, this.excl⟩
    · exact h.ended pid
  | replace f => exact ⟨h.pos, h.pid, h.held, h.excl⟩
  | other pid i wr =>
    rw [Daemons.step]
    split
    · exact h
    · rename_i hp
      cases hs : setLock s.locks pid i wr with
      | none => exact h
      | some t =>
        have hm := setLock_mem hs
        refine ⟨?_, h.pid, ?_, h.excl⟩
        · intro l hl
          rcases (hm l).1 hl with g | rfl
          · exact h.pos l g.1
          · exact hx
        · intro p b e hb
          obtain ⟨l, l1, l2, l3⟩ := h.held p b e hb
          refine ⟨l, (hm l).2 (Or.inl ⟨l1, fun g => hp ?_⟩), l2, l3⟩
          rw [← g.1, l2, e]
          intro g; cases g

theorem DaemonInv.run {s : Daemons} (h : DaemonInv s) (hist : List DEv) (hx : ∀ x ∈ hist, x.ok) : DaemonInv (s.run hist) := by
  induction hist generalizing s with
  | nil => exact h
  | cons x r ih => exact ih (h.step x (hx x List.mem_cons_self)) (fun y hy => hx y (List.mem_cons_of_mem _ hy))

/-! ### Without other programs, and with one file -/

/-- Every lock is that of a daemon; the pid file is that of the running daemon. -/
structure DaemonOwn (f : Nat) (s : Daemons) : Prop where
  inv : DaemonInv s
  file : s.file = some f
  inos : ∀ p a, s.phase p = some a → a.ino = f
  own : ∀ l ∈ s.locks, ∃ a, s.phase l.pid = some a ∧ a.hasLock = true ∧ l.ino = f
  pidfile : ∀ p i, s.phase p = some (.running i) → s.pidfile = some (pidText p)

def DEv.mine : DEv → Bool
  | .other _ _ _ => false
  | .replace _ => false
  | _ => true

theorem DaemonOwn.init (f : Nat) (t : Option (List UInt8)) : DaemonOwn f { file := some f, pidfile := t } :=
  ⟨DaemonInv.init _ _, rfl, (fun _ _ h => by cases h), (fun _ h => by cases h), (fun _ _ h => by cases h)⟩

theorem DaemonOwn.ended {f : Nat} {s : Daemons} (h : DaemonOwn f s) (pid : Int) : DaemonOwn f (s.ended pid) := by
  have ph : ∀ q b, (s.ended pid).phase q = some b → q ≠ pid ∧ s.phase q = some b := by
    intro q b e
    have e : (if q = pid then none else s.phase q) = some b := e
    split at e
    · cases e
    · rename_i hq; exact ⟨hq, e⟩
  refine ⟨h.inv.ended pid, h.file, fun p a e => h.inos p a (ph p a e).2, ?_, fun p i e => h.pidfile p i (ph p _ e).2⟩
  intro l hl
  obtain ⟨l1, l2⟩ := mem_dropLocks.1 hl
  obtain ⟨a, a1, a2⟩ := h.own l l1
  refine ⟨a, ?_, a2⟩
  show (if l.pid = pid then none else s.phase l.pid) = some a
  rw [if_neg l2]
  exact a1

theorem DaemonOwn.step {f : Nat} {s : Daemons} (h : DaemonOwn f s) (x : DEv) (hx : x.mine = true) : DaemonOwn f (s.step x) := by
  have hinv : DaemonInv (s.step x) := h.inv.step x (by cases x <;> first | trivial | cases hx)
  cases x with
  | start pid =>
    rw [Daemons.step] at hinv ⊢
    split at hinv
    · rename_i hc; rw [if_pos hc]; exact h
    · rename_i hc
      rw [if_neg hc]
      have hn : s.phase pid = none := Classical.byContradiction fun g => hc (Or.inr (Or.inr g))
      rw [h.file] at hinv ⊢
      refine ⟨hinv, h.file, ?_, ?_, ?_⟩
      · intro p a e
        have e : (if p = pid then some (DPhase.opened f) else s.phase p) = some a := e
        split at e
        · cases e; rfl
        · exact h.inos p a e
      · intro l hl
        obtain ⟨l1, l2⟩ := mem_dropLocks.1 hl
        obtain ⟨a, a1, a2⟩ := h.own l l1
        refine ⟨a, ?_, a2⟩
        show (if l.pid = pid then some (DPhase.opened f) else s.phase l.pid) = some a
        rw [if_neg l2]; exact a1
      · intro p i e
        have e : (if p = pid then some (DPhase.opened f) else s.phase p) = some (.running i) := e
        split at e
        · cases e
        · exact h.pidfile p i e
  | step pid pick =>
    rw [Daemons.step] at hinv ⊢
    unfold Daemons.advance at hinv ⊢
    cases hp : s.phase pid with
    | none => exact h
    | some a =>
      rw [hp] at hinv
      have hai := h.inos pid a hp
      cases a with
      | opened i =>
        dsimp only at hinv ⊢
        cases hs : setLock s.locks pid i false with
        | none => exact h.ended pid
        | some t =>
          rw [hs] at hinv
          dsimp only at hinv ⊢
          have hm := setLock_mem hs
          refine ⟨hinv, h.file, ?_, ?_, ?_⟩
          · intro p a e
            have e : (if p = pid then some (DPhase.locked i) else s.phase p) = some a := e
            split at e
            · cases e; exact hai
            · exact h.inos p a e
          · intro l hl
            show ∃ a, (if l.pid = pid then some (DPhase.locked i) else s.phase l.pid) = some a ∧ _
            rcases (hm l).1 hl with ⟨g, _⟩ | rfl
            · obtain ⟨a, a1, a2, a3⟩ := h.own l g
              by_cases e : l.pid = pid
              · rw [if_pos e]; exact ⟨_, rfl, rfl, a3⟩
              · rw [if_neg e]; exact ⟨a, a1, a2, a3⟩
            · rw [if_pos rfl]; exact ⟨_, rfl, rfl, hai⟩
          · intro p j e
            have e : (if p = pid then some (DPhase.locked i) else s.phase p) = some (.running j) := e
            split at e
            · cases e
            · exact h.pidfile p j e
      | refused i => exact h.ended pid
      | locked i =>
        dsimp only at hinv ⊢
        split at hinv
        · rename_i ht
          rw [if_pos ht]
          refine ⟨hinv, h.file, ?_, ?_, ?_⟩
          · intro p a e
            rw [phase_set] at e
            split at e
            · cases e; exact hai
            · exact h.inos p a e
          · intro l hl
            obtain ⟨a, a1, a2, a3⟩ := h.own l hl
            rw [phase_set]
            by_cases e : l.pid = pid
            · rw [if_pos e]; exact ⟨_, rfl, rfl, a3⟩
            · rw [if_neg e]; exact ⟨a, a1, a2, a3⟩
          · intro p j e
            rw [phase_set] at e
            split at e
            · cases e
            · exact h.pidfile p j e
        · rename_i ht
          rw [if_neg ht]
          refine ⟨hinv, h.file, ?_, ?_, ?_⟩
          · intro p a e
            rw [phase_set] at e
            split at e
            · cases e; exact hai
            · exact h.inos p a e
          · intro l hl
            obtain ⟨a, a1, a2, a3⟩ := h.own l hl
            rw [phase_set]
            by_cases e : l.pid = pid
            · rw [if_pos e]; exact ⟨_, rfl, rfl, a3⟩
            · rw [if_neg e]; exact ⟨a, a1, a2, a3⟩
          · intro p j e
            rw [phase_set] at e
            split at e
            · cases e
            · exact h.pidfile p j e
      | checked i =>
        dsimp only at hinv ⊢
        refine ⟨hinv, h.file, ?_, ?_, ?_⟩
        · intro p a e
          have e : (if p = pid then some (DPhase.running i) else s.phase p) = some a := e
          split at e
          · cases e; exact hai
          · exact h.inos p a e
        · intro l hl
          obtain ⟨a, a1, a2, a3⟩ := h.own l hl
          show ∃ a, (if l.pid = pid then some (DPhase.running i) else s.phase l.pid) = some a ∧ _
          by_cases e : l.pid = pid
          · rw [if_pos e]; exact ⟨_, rfl, rfl, a3⟩
          · rw [if_neg e]; exact ⟨a, a1, a2, a3⟩
        · intro p j e
          have e : (if p = pid then some (DPhase.running i) else s.phase p) = some (.running j) := e
          split at e
          · rename_i g; rw [g]
          · rename_i g
            exfalso
            have := h.inv.excl p pid _ _ e hp rfl rfl ((h.inos p _ e).trans hai.symm)
            exact g this
      | running i => exact h
  | kill pid => exact h.ended pid
  | stop pid =>
    rw [Daemons.step] at hinv ⊢
    unfold Daemons.stopped at hinv ⊢
    split at hinv
    · rename_i i hi
      have g := h.ended pid
      refine ⟨hinv, g.file, g.inos, g.own, ?_⟩
      intro p j e
      exfalso
      have e : (if p = pid then none else s.phase p) = some (.running j) := e
      split at e
      · cases e
      · rename_i hpq
        exact hpq (h.inv.excl p pid _ _ e hi rfl rfl ((h.inos p _ e).trans (h.inos pid _ hi).symm))
    · exact h.ended pid
  | replace f => cases hx
  | other pid i wr => cases hx

theorem DaemonOwn.run {f : Nat} {s : Daemons} (h : DaemonOwn f s) (hist : List DEv) (hx : ∀ x ∈ hist, x.mine = true) : DaemonOwn f (s.run hist) := by
  induction hist generalizing s with
  | nil => exact h
  | cons x r ih => exact ih (h.step x (hx x List.mem_cons_self)) (fun y hy => hx y (List.mem_cons_of_mem _ hy))

theorem readPidfile_pidText {p : Int} (h : 1 < p) (h2 : p ≤ 2147483647) : readPidfile (some (pidText p)) = some p := by
  obtain ⟨n, rfl⟩ : ∃ n : Nat, p = n := ⟨p.toNat, by omega⟩
  have hn : n ≤ 2147483647 := by omega
  obtain ⟨d1, d2, d3, d4⟩ := dec_spec n
  obtain ⟨c, t, hc⟩ : ∃ c t, dec n = c :: t := by
    cases hd : dec n with
    | nil => exact absurd hd d1
    | cons c t => exact ⟨c, t, rfl⟩
  have hdc : Spec.digit c := d2 c (by rw [hc]; exact List.mem_cons_self)
  have hsc : scanD (pidText n) = some (some ((n : Int), [0x0A])) := by
    unfold scanD pidText decInt
    rw [if_neg (show ¬ (n : Int) < 0 by omega), Int.natAbs_natCast, hc]
    have e1 : (c :: t ++ [0x0A]).dropWhile isSpace = c :: t ++ [0x0A] := by
      rw [List.cons_append, List.dropWhile_cons, digit_notSpace hdc]
      rfl
    dsimp only
    rw [e1]
    have hne : ∀ x : UInt8, ¬ Spec.digit x → (c :: t ++ [0x0A]).head? = some x → False := by
      intro x hx g
      simp only [List.cons_append, List.head?_cons, Option.some.injEq] at g
      exact hx (g ▸ hdc)
    have n1 : ¬ (c :: t ++ [0x0A]).head? = some 0x2D := fun g => hne _ (by decide) g
    have n2 : ¬ (c :: t ++ [0x0A]).head? = some 0x2B := fun g => hne _ (by decide) g
    simp only [n1, n2, decide_false, Bool.or_false, Bool.false_eq_true, if_false]
    rw [← hc]
    have tw : (dec n ++ [0x0A]).takeWhile isDigit = dec n := by
      rw [List.takeWhile_append_of_pos (fun x hx => digit_isDigit (d2 x hx))]
      simp [isDigit]
    have dw : (dec n ++ [0x0A]).dropWhile isDigit = [0x0A] := by
      rw [List.dropWhile_append_of_pos (fun x hx => digit_isDigit (d2 x hx))]
      rfl
    rw [tw, dw, d3, if_neg d1, if_pos ⟨by omega, by omega⟩]
  have e : readPidfile (some (pidText n)) = (match scanD (pidText n) with
    | none => none
    | some none => some 0
    | some (some (pid, _)) => some (if pid > 1 then pid else 0)) := rfl
  rw [e, hsc]
  dsimp only
  rw [if_pos h]

/-- A process that is not started is not there. -/
theorem step_absent {s : Daemons} {q : Int} (h : s.phase q = none) (x : DEv) (hx : x ≠ .start q) : (s.step x).phase q = none := by
  have set : ∀ (s : Daemons) pid ph, s.phase q = none → (q = pid → ph = none) → (s.setPhase pid ph).phase q = none := by
    intro s pid ph h e
    rw [phase_set]
    split
    · rename_i g; exact e g
    · exact h
  cases x with
  | start pid =>
    rw [Daemons.step]
    split
    · exact h
    · cases s.file with
      | none => exact h
      | some i => exact set s pid _ h (fun g => absurd (by rw [g]) hx)
  | step pid k =>
    rw [Daemons.step]
    unfold Daemons.advance
    cases hp : s.phase pid with
    | none => exact h
    | some ph =>
      have ne : q ≠ pid := fun g => by rw [g, hp] at h; cases h
      cases ph with
      | opened i =>
        dsimp only
        cases setLock s.locks pid i false with
        | none => exact set s pid _ h (fun g => absurd g ne)
        | some t => exact set s pid _ h (fun g => absurd g ne)
      | locked i => dsimp only; split <;> exact set s pid _ h (fun g => absurd g ne)
      | checked i => exact set s pid _ h (fun g => absurd g ne)
      | refused i => exact set s pid _ h (fun g => absurd g ne)
      | running i => exact h
  | kill pid => exact set s pid _ h (fun _ => rfl)
  | stop pid =>
    rw [Daemons.step]
    unfold Daemons.stopped
    split <;> exact set s pid _ h (fun _ => rfl)
  | replace f => exact h
  | other pid i w =>
    rw [Daemons.step]
    split
    · exact h
    · cases setLock s.locks pid i w <;> exact h

theorem run_absent {s : Daemons} {q : Int} (h : s.phase q = none) (r : List DEv) (hx : .start q ∉ r) : (s.run r).phase q = none := by
  induction r generalizing s with
  | nil => exact h
  | cons x r ih => exact ih (step_absent h x (fun g => hx (by rw [g]; exact List.mem_cons_self))) (fun g => hx (List.mem_cons_of_mem _ g))

end Conman
