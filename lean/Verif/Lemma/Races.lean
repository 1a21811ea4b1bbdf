import Verif.Model.Races

namespace Conman

open Spec

/-! ### Steps without the positions of loops -/

/-- The same loop at its beginning. -/
def RcI.strip : RcI → RcI
  | .noteR d _ => .noteR d 0
  | .noteW d _ => .noteW d 0
  | .tellW s d _ => .tellW s d 0
  | .stealW d _ => .stealW d 0
  | .tellBusy o _ => .tellBusy o 0
  | i => i

theorem strip_adj (σ : RcStore) (i j : RcI) : (rcAdj σ i j).strip = j.strip := by
  unfold rcAdj; split <;> rfl

/-- Only uses objects. -/
def RcI.benign : RcI → Bool
  | .deref _ | .noteR _ _ | .noteW _ _ | .noteX _ _ | .tellW _ _ _ | .tellBusy _ _
  | .state _ _ _ => true
  | _ => false

/-- The objects it uses. -/
def RcI.refs : RcI → List Nat
  | .deref x => [x]
  | .noteR d _ => [d]
  | .noteW d _ => [d]
  | .noteX d x => [d, x]
  | .tellW s d _ => [s, d]
  | .stealW d _ => [d]
  | .link a b _ => [a, b]
  | .add1 a b => [a, b]
  | .add2 a b => [a, b]
  | .cut1 a b => [a, b]
  | .cut2 a b => [a, b]
  | .drainW x => [x]
  | .drainR x => [x]
  | .ask r _ rest busy => r.client :: r.consoles ++ rest ++ busy
  | .tellBusy o _ => [o]
  | .born c => [c]
  | .state o c _ => [o, c]
  | .retire c => [c]
  | .toggle c _ => [c]

/-- The connections it will make. -/
def RcI.pend : RcI → List (Nat × Nat)
  | .link a b _ => [(a, b)]
  | .add1 a b => [(a, b)]
  | .add2 a b => [(a, b)]
  | .ask r _ _ _ => r.pairs
  | _ => []

/-- It takes part in unlinking. -/
def RcI.forceful : RcI → Bool
  | .stealW _ _ | .drainW _ | .drainR _ | .cut1 _ _ | .cut2 _ _ | .link _ _ true => true
  | _ => false

/-- Harmless things to do about `xs`. -/
def Harmless (live : Nat → Prop) (p : List RcI) : Prop :=
  ∀ j ∈ p, j.benign = true ∧ ∀ x ∈ j.refs, live x

/-- Steps of stripped instructions. -/
inductive AStep (σ : RcStore) : RcI → RcStore → List RcI → Prop where
  | quiet {i push} : i.benign = true →
      Harmless (fun x => x ∈ i.refs ∨ ∃ y ∈ i.refs, x ∈ (σ y).rd ∨ x ∈ (σ y).wr) push →
      AStep σ i σ push
  | ask1 {r dn o rest bs bs'} : (∀ x ∈ bs', x = o ∨ x ∈ bs) →
      AStep σ (.ask r dn (o :: rest) bs) σ [.ask r dn rest bs']
  | ask2 {r dn} : AStep σ (.ask r dn [] []) σ (rcPerform dn r)
  | ask3 {r dn bs} : AStep σ (.ask r dn [] bs) σ (bs.map fun o => .tellBusy o 0)
  | link {a b f q} : Harmless (fun x => x = a ∨ x = b) q →
      AStep σ (.link a b f) σ (q ++ [.add1 a b])
  | linkF {a b q} : (σ a).kind = .client → (σ b).kind = .console →
      Harmless (fun x => x = a ∨ x = b) q →
      AStep σ (.link a b true) σ (q ++ [.stealW b 0] ++ [.add1 a b])
  | steal {d x} : x ∈ (σ d).wr →
      AStep σ (.stealW d 0) σ [.drainW x, .drainR x, .stealW d 0]
  | steal0 {d} : AStep σ (.stealW d 0) σ []
  | add1 {a b} : AStep σ (.add1 a b) (rcUpd σ a fun o => { o with rd := o.rd ++ [b] }) [.add2 a b]
  | add2 {a b} : AStep σ (.add2 a b) (rcUpd σ b fun o => { o with wr := o.wr ++ [a] }) []
  | cut1 {a b} :
      AStep σ (.cut1 a b) (rcUpd σ a fun o => { o with rd := o.rd.filter (· ≠ b) }) [.cut2 a b]
  | cut2 {a b q} : Harmless (fun x => x = a ∨ x = b) q →
      AStep σ (.cut2 a b) (rcUpd σ b fun o => { o with wr := o.wr.filter (· ≠ a) }) q
  | drainW {x y} : y ∈ (σ x).wr → AStep σ (.drainW x) σ [.cut1 y x, .drainW x]
  | drainW0 {x} : (σ x).wr = [] → AStep σ (.drainW x) σ []
  | drainR {x y} : y ∈ (σ x).rd → AStep σ (.drainR x) σ [.cut1 x y, .drainR x]
  | drainR0 {x} : (σ x).rd = [] → AStep σ (.drainR x) σ []
  | born {c} : (σ c).live = true →
      AStep σ (.born c) (rcUpd σ c fun o => { o with pub := true }) []
  | retire {c} :
      AStep σ (.retire c) (rcUpd σ c fun o => { o with live := false, pub := false }) []

theorem harmless_nil {l} : Harmless l [] := by intro j hj; cases hj

theorem harmless_notify {l : Nat → Prop} {d} (h : l d) : Harmless l (rcNotify d) := by
  intro j hj
  simp only [rcNotify, List.mem_cons, List.not_mem_nil, or_false] at hj
  rcases hj with rfl | rfl <;> refine ⟨rfl, ?_⟩ <;> intro x hx <;>
    rw [List.mem_singleton.mp hx] <;> exact h

theorem harmless_cons {l : Nat → Prop} {j p} (a : j.benign = true) (b : ∀ x ∈ j.refs, l x)
    (h : Harmless l p) : Harmless l (j :: p) := by
  intro k hk
  cases hk with
  | head => exact ⟨a, b⟩
  | tail _ hk => exact h k hk

theorem harmless_append {l p q} (a : Harmless l p) (b : Harmless l q) :
    Harmless l (p ++ q) := by
  intro j hj
  rcases List.mem_append.mp hj with h | h
  · exact a j h
  · exact b j h

theorem harmless_strip {l p} (a : Harmless l p) : Harmless l (p.map RcI.strip) := by
  intro j hj
  obtain ⟨k, hk, rfl⟩ := List.mem_map.mp hj
  have := a k hk
  cases k <;> exact this

theorem strip_rcPerform (dn r) : (rcPerform dn r).map RcI.strip = rcPerform dn r := by
  unfold rcPerform
  split
  · rfl
  · simp only [List.map_append, List.map_cons, List.map_flatMap, List.map_nil, RcI.strip]
  · rfl

theorem harmless_deref {l : Nat → Prop} {x} (h : l x) : Harmless l [.deref x] :=
  harmless_cons rfl (by intro y hy; rw [List.mem_singleton.mp hy]; exact h) harmless_nil

theorem mem_of_get {l : List Nat} {p x : Nat} (h : l[p]? = some x) : x ∈ l :=
  List.mem_of_getElem? h

/-- Every step, without positions. -/
theorem rcStep_astep {σ i σ' push} (h : rcStep σ i = some (σ', push))
    (nt : ∀ c f, i ≠ .toggle c f) : AStep σ i.strip σ' (push.map RcI.strip) := by
  cases i with
  | deref x =>
    simp only [rcStep] at h
    split at h
    · cases h; exact .quiet rfl harmless_nil
    · cases h
  | noteR d p =>
    simp only [rcStep] at h
    split at h
    · split at h
      · rename_i x hx
        cases h
        refine .quiet rfl (harmless_strip (harmless_cons rfl ?_ (harmless_cons rfl ?_ harmless_nil)))
        · intro y hy; rw [List.mem_singleton.mp hy]
          exact .inr ⟨d, List.mem_singleton.mpr rfl, .inl (mem_of_get hx)⟩
        · intro y hy; exact .inl hy
      · cases h; exact .quiet rfl harmless_nil
    · cases h
  | noteW d p =>
    simp only [rcStep] at h
    split at h
    · split at h
      · rename_i x hx
        cases h
        refine .quiet rfl (harmless_strip (harmless_cons rfl ?_ (harmless_cons rfl ?_ harmless_nil)))
        · intro y hy
          simp only [RcI.refs, List.mem_cons, List.not_mem_nil, or_false] at hy
          rcases hy with rfl | rfl
          · exact .inl (List.mem_singleton.mpr rfl)
          · exact .inr ⟨d, List.mem_singleton.mpr rfl, .inr (mem_of_get hx)⟩
        · intro y hy; exact .inl hy
      · cases h; exact .quiet rfl harmless_nil
    · cases h
  | noteX d x =>
    simp only [rcStep] at h
    split at h
    · cases h
      refine .quiet rfl (harmless_strip ?_)
      split
      · exact harmless_nil
      · exact harmless_deref (.inl (by simp [RcI.strip, RcI.refs]))
    · cases h
  | tellW s d p =>
    simp only [rcStep] at h
    split at h
    · split at h
      · rename_i x hx
        cases h
        refine .quiet rfl (harmless_strip (harmless_cons rfl ?_ (harmless_cons rfl ?_
          (harmless_cons rfl ?_ harmless_nil))))
        · intro y hy; rw [List.mem_singleton.mp hy]
          exact .inr ⟨d, by simp [RcI.strip, RcI.refs], .inr (mem_of_get hx)⟩
        · intro y hy; rw [List.mem_singleton.mp hy]
          exact .inl (by simp [RcI.strip, RcI.refs])
        · intro y hy; exact .inl hy
      · cases h; exact .quiet rfl harmless_nil
    · cases h
  | stealW d p =>
    simp only [rcStep] at h
    split at h
    · split at h
      · rename_i x hx
        cases h
        exact .steal (mem_of_get hx)
      · cases h; exact .steal0
    · cases h
  | link a b f =>
    simp only [rcStep] at h
    split at h
    · split at h
      · rename_i hk
        cases h
        have q : Harmless (fun x => x = a ∨ x = b) (rcNotify b ++ [.tellW a b 0]) := by
          refine harmless_append (harmless_notify (.inr rfl)) (harmless_cons rfl ?_ harmless_nil)
          intro y hy
          simpa [RcI.refs] using hy
        by_cases c : f = true ∧ (σ b).wr ≠ []
        · obtain ⟨rfl, c2⟩ := c
          rw [if_pos ⟨rfl, c2⟩]
          exact .linkF hk.1 hk.2 q
        · rw [if_neg c]
          simp only [List.append_nil]
          exact .link q
      · cases h
        exact .link (q := []) harmless_nil
    · cases h
  | add1 a b =>
    simp only [rcStep] at h
    split at h
    · cases h; exact .add1
    · cases h
  | add2 a b =>
    simp only [rcStep] at h
    split at h
    · cases h; exact .add2
    · cases h
  | cut1 a b =>
    simp only [rcStep] at h
    split at h
    · cases h; exact .cut1
    · cases h
  | cut2 a b =>
    simp only [rcStep] at h
    split at h
    · simp only [Option.some.injEq, Prod.mk.injEq] at h
      obtain ⟨rfl, rfl⟩ := h
      refine .cut2 (harmless_strip ?_)
      have two : Harmless (fun x => x = a ∨ x = b) [.deref a, .deref b] :=
        harmless_append (harmless_deref (.inl rfl)) (harmless_deref (.inr rfl))
      split
      · exact harmless_append (harmless_append (harmless_deref (.inl rfl))
          (harmless_notify (.inr rfl))) two
      · exact two
    · cases h
  | drainW x =>
    simp only [rcStep] at h
    split at h
    · split at h
      · rename_i hx
        cases h
        exact .drainW (by rw [hx]; exact List.mem_cons_self)
      · rename_i hx
        cases h
        exact .drainW0 hx
    · cases h
  | drainR x =>
    simp only [rcStep] at h
    split at h
    · split at h
      · rename_i hx
        cases h
        exact .drainR (by rw [hx]; exact List.mem_cons_self)
      · rename_i hx
        cases h
        exact .drainR0 hx
    · cases h
  | ask r dn rest bs =>
    match rest, bs with
    | [], [] =>
      simp only [rcStep, Option.some.injEq, Prod.mk.injEq] at h
      obtain ⟨rfl, rfl⟩ := h
      rw [strip_rcPerform]
      exact .ask2
    | [], b :: bs =>
      simp only [rcStep, Option.some.injEq, Prod.mk.injEq] at h
      obtain ⟨rfl, rfl⟩ := h
      have : List.map RcI.strip (List.map (fun o => RcI.tellBusy o 0) (b :: bs)) =
          (b :: bs).map fun o => RcI.tellBusy o 0 := by
        rw [List.map_map]; rfl
      rw [this]
      exact .ask3
    | o :: rest, bs =>
      simp only [rcStep] at h
      split at h
      · cases h
        refine .ask1 ?_
        intro x hx
        split at hx
        · exact .inr hx
        · rcases List.mem_append.mp hx with h | h
          · exact .inr h
          · exact .inl (List.mem_singleton.mp h)
      · cases h
  | tellBusy o p =>
    simp only [rcStep] at h
    split at h
    · split at h
      · rename_i x hx
        cases h
        refine .quiet rfl (harmless_strip (harmless_cons rfl ?_ (harmless_cons rfl ?_ harmless_nil)))
        · intro y hy; rw [List.mem_singleton.mp hy]
          exact .inr ⟨o, List.mem_singleton.mpr rfl, .inr (mem_of_get hx)⟩
        · intro y hy; exact .inl hy
      · cases h; exact .quiet rfl harmless_nil
    · cases h
  | born c =>
    simp only [rcStep] at h
    split at h
    · rename_i l; cases h; exact .born l
    · cases h
  | state o c k =>
    simp only [rcStep] at h
    split at h
    · cases h
      refine .quiet rfl (harmless_strip ?_)
      have lo : o ∈ (RcI.strip (.state o c k)).refs := by simp [RcI.strip, RcI.refs]
      have lc : c ∈ (RcI.strip (.state o c k)).refs := by simp [RcI.strip, RcI.refs]
      split
      · exact harmless_nil
      · refine harmless_append (harmless_append (harmless_deref (.inl lc)) ?_)
          (harmless_deref (.inl lo))
        intro j hj
        obtain ⟨l, hl, hj⟩ := List.mem_flatten.mp hj
        rw [(List.mem_replicate.mp hl).2] at hj
        exact harmless_notify (.inl lo) j hj
    · cases h
  | retire c =>
    simp only [rcStep] at h
    split at h
    · cases h; exact .retire
    · cases h
  | toggle c f => exact absurd rfl (nt c f)

/-- With all objects there, every step can be taken. -/
theorem rcStep_some {σ : RcStore} {i : RcI} (h : ∀ x ∈ i.refs, (σ x).live = true)
    (nt : ∀ c f, i ≠ .toggle c f) : ∃ r, rcStep σ i = some r := by
  have g : ∀ x, x ∈ i.refs → ((σ x).live = true) := h
  cases i with
  | toggle c f => exact absurd rfl (nt c f)
  | link a b f =>
    have la := g a (by simp [RcI.refs])
    have lb := g b (by simp [RcI.refs])
    simp only [rcStep, la, lb, and_self, if_true]
    split <;> exact ⟨_, rfl⟩
  | ask r dn rest bs =>
    match rest, bs with
    | [], [] => exact ⟨_, rfl⟩
    | [], b :: bs => exact ⟨_, rfl⟩
    | o :: rest, bs =>
      have lo := g o (by simp [RcI.refs])
      simp only [rcStep, lo, if_true]
      exact ⟨_, rfl⟩
  | deref x => simp only [rcStep, g x (by simp [RcI.refs]), if_true]; exact ⟨_, rfl⟩
  | noteR d p =>
    simp only [rcStep, g d (by simp [RcI.refs]), if_true]; split <;> exact ⟨_, rfl⟩
  | noteW d p =>
    simp only [rcStep, g d (by simp [RcI.refs]), if_true]; split <;> exact ⟨_, rfl⟩
  | noteX d x =>
    simp only [rcStep, g d (by simp [RcI.refs]), if_true]; exact ⟨_, rfl⟩
  | tellW s d p =>
    simp only [rcStep, g d (by simp [RcI.refs]), if_true]; split <;> exact ⟨_, rfl⟩
  | stealW d p =>
    simp only [rcStep, g d (by simp [RcI.refs]), if_true]; split <;> exact ⟨_, rfl⟩
  | add1 a b => simp only [rcStep, g a (by simp [RcI.refs]), if_true]; exact ⟨_, rfl⟩
  | add2 a b => simp only [rcStep, g b (by simp [RcI.refs]), if_true]; exact ⟨_, rfl⟩
  | cut1 a b => simp only [rcStep, g a (by simp [RcI.refs]), if_true]; exact ⟨_, rfl⟩
  | cut2 a b => simp only [rcStep, g b (by simp [RcI.refs]), if_true]; exact ⟨_, rfl⟩
  | drainW x =>
    simp only [rcStep, g x (by simp [RcI.refs]), if_true]; split <;> exact ⟨_, rfl⟩
  | drainR x =>
    simp only [rcStep, g x (by simp [RcI.refs]), if_true]; split <;> exact ⟨_, rfl⟩
  | tellBusy o p =>
    simp only [rcStep, g o (by simp [RcI.refs]), if_true]; split <;> exact ⟨_, rfl⟩
  | born c => simp only [rcStep, g c (by simp [RcI.refs]), if_true]; exact ⟨_, rfl⟩
  | state o c k => simp only [rcStep, g o (by simp [RcI.refs]), if_true]; exact ⟨_, rfl⟩
  | retire c => simp only [rcStep, g c (by simp [RcI.refs]), if_true]; exact ⟨_, rfl⟩

/-! ### The invariant -/

/-- A thread with its request (the main thread has none). -/
structure RcT where
  tag : Option RcReq
  todo : List RcI

/-- Somebody has this to do. -/
def hasI (T : List RcT) (i : RcI) : Prop := ∃ t ∈ T, i ∈ t.todo

def RcT.pend (t : RcT) : List (Nat × Nat) := t.todo.flatMap RcI.pend

def pends (T : List RcT) : List (Nat × Nat) := T.flatMap RcT.pend

def rcTyped (σ : RcStore) : RcI → Prop
  | .stealW d _ => (σ d).kind = .console
  | .drainW x => (σ x).kind = .client
  | .drainR x => (σ x).kind = .client
  | .link a b _ => rcFits σ a b
  | .add1 a b => rcFits σ a b
  | .add2 a b => rcFits σ a b
  | .cut1 a b => rcFits σ a b
  | .cut2 a b => rcFits σ a b
  | .ask r _ _ _ => (∃ c os, r = .connect c os false false) ∧ ∀ p ∈ r.pairs, rcFits σ p.1 p.2
  | .retire c => (σ c).kind = .client
  | .toggle _ _ => False
  | _ => True

/-- What holds of the threads. -/
structure RcShape (σ : RcStore) (T : List RcT) : Prop where
  typ : ∀ i, hasI T i → rcTyped σ i
  nd : (pends T).Nodup
  own : ∀ t ∈ T, ∀ p ∈ t.pend, ∃ r, t.tag = some r ∧ p ∈ r.pairs
  force : ∀ t ∈ T, ∀ i ∈ t.todo, i.forceful = true →
    (∃ r, t.tag = some r ∧ r.forced = true) ∨ ∃ c, .retire c ∈ t.todo
  steal : ∀ t ∈ T, ∀ X Y d, t.todo = X ++ .stealW d 0 :: Y →
    ∃ c, (c, d) ∈ Y.flatMap RcI.pend ∧ (σ c).kind = .client
  guard : ∀ t ∈ T, ∀ t' ∈ T, ∀ r r', t.tag = some r → t'.tag = some r' → t.todo ≠ [] →
    t'.todo ≠ [] → r.broad = true → r'.forced = true → r.client = r'.client
  retire : ∀ t ∈ T, ∀ c, .retire c ∈ t.todo → t.tag = none ∧
    (∀ t' ∈ T, t'.tag ≠ none → t'.todo = []) ∧
    ∃ X, t.todo = X ++ [.retire c] ∧ ∀ c', .retire c' ∉ X
  main : ∃ m ths, T = ⟨none, m⟩ :: ths ∧ ∀ t ∈ ths, t.tag ≠ none
  tags : ∀ t ∈ T, ∀ r, t.tag = some r → (σ r.client).kind = .client ∧
    ∀ o ∈ r.consoles, (σ o).kind = .console

/-- What holds of the objects. -/
structure RcLinks (σ : RcStore) (T : List RcT) : Prop where
  rdL : ∀ a b, b ∈ (σ a).rd → (σ a).live = true ∧ (σ b).live = true ∧ rcFits σ a b
  wrL : ∀ a b, a ∈ (σ b).wr → (σ a).live = true ∧ (σ b).live = true ∧ rcFits σ a b
  refsL : ∀ i, hasI T i → ∀ x ∈ i.refs, (σ x).live = true
  s1 : ∀ a b, b ∈ (σ a).rd → a ∈ (σ b).wr ∨ hasI T (.add2 a b)
  s2 : ∀ a b, a ∈ (σ b).wr → b ∈ (σ a).rd ∨ hasI T (.cut2 a b)
  c2 : ∀ a b, hasI T (.cut2 a b) → b ∉ (σ a).rd
  a2 : ∀ a b, hasI T (.add2 a b) → b ∈ (σ a).rd
  pnd : ∀ a b, (a, b) ∈ pends T → a ∉ (σ b).wr ∧ ¬ hasI T (.cut1 a b) ∧
    ¬ hasI T (.cut2 a b) ∧
    ((σ a).kind = .client → ¬ hasI T (.drainW a) ∧ ¬ hasI T (.drainR a)) ∧
    (b ∈ (σ a).rd → hasI T (.add2 a b))
  single : ∀ t ∈ T, ∀ r a b, t.tag = some r → (a, b) ∈ t.pend → (σ a).kind = .client →
    r.broad = false → (∀ o, a ∉ (σ o).wr) ∧ ∀ b', (a, b') ∈ pends T → b' = b
  drains : ∀ t ∈ T, ∀ c, .retire c ∈ t.todo →
    (.drainW c ∈ t.todo ∨ (σ c).wr = []) ∧ (.drainR c ∈ t.todo ∨ (σ c).rd = [])
  used : ∀ a, ((σ a).live = true → (σ a).used = true) ∧ ((σ a).pub = true → (σ a).live = true)
  tagsU : ∀ t ∈ T, ∀ r, t.tag = some r → (σ r.client).used = true

/-- Kinds never change. -/
theorem AStep.kind {σ i σ' push} (h : AStep σ i σ' push) (x : Nat) :
    (σ' x).kind = (σ x).kind := by
  cases h <;> first | rfl | (simp only [rcUpd]; split <;> rfl)

theorem fits_congr {σ σ' : RcStore} (k : ∀ x, (σ' x).kind = (σ x).kind) {a b} :
    rcFits σ' a b ↔ rcFits σ a b := by
  unfold rcFits; simp only [k]

theorem typed_congr {σ σ' : RcStore} (k : ∀ x, (σ' x).kind = (σ x).kind) {i} :
    rcTyped σ' i ↔ rcTyped σ i := by
  unfold rcTyped; split <;> simp only [k, fits_congr k]

section Step
variable {A B : List RcT} {g : Option RcReq} {i : RcI} {k push : List RcI}

theorem has_new {j} (h : hasI (A ++ ⟨g, push ++ k⟩ :: B) j) :
    hasI (A ++ ⟨g, i :: k⟩ :: B) j ∨ j ∈ push := by
  obtain ⟨t, ht, hj⟩ := h
  simp only [List.mem_append, List.mem_cons] at ht
  rcases ht with h | rfl | h
  · exact .inl ⟨t, by simp [h], hj⟩
  · rcases List.mem_append.mp hj with h | h
    · exact .inr h
    · exact .inl ⟨⟨g, i :: k⟩, by simp, List.mem_cons_of_mem _ h⟩
  · exact .inl ⟨t, by simp [h], hj⟩

theorem has_old {j} (h : hasI (A ++ ⟨g, i :: k⟩ :: B) j) :
    hasI (A ++ ⟨g, push ++ k⟩ :: B) j ∨ j = i := by
  obtain ⟨t, ht, hj⟩ := h
  simp only [List.mem_append, List.mem_cons] at ht
  rcases ht with h | rfl | h
  · exact .inl ⟨t, by simp [h], hj⟩
  · rcases List.mem_cons.mp hj with h | h
    · exact .inr h
    · exact .inl ⟨⟨g, push ++ k⟩, by simp, List.mem_append_right _ h⟩
  · exact .inl ⟨t, by simp [h], hj⟩

theorem has_push {j} (h : j ∈ push) : hasI (A ++ ⟨g, push ++ k⟩ :: B) j :=
  ⟨⟨g, push ++ k⟩, by simp, List.mem_append_left _ h⟩

theorem has_head : hasI (A ++ ⟨g, i :: k⟩ :: B) i := ⟨⟨g, i :: k⟩, by simp, List.mem_cons_self⟩

theorem pends_sub (s : (push.flatMap RcI.pend).Sublist i.pend) :
    (pends (A ++ ⟨g, push ++ k⟩ :: B)).Sublist (pends (A ++ ⟨g, i :: k⟩ :: B)) := by
  simp only [pends, List.flatMap_append, List.flatMap_cons, RcT.pend]
  exact (List.Sublist.refl _).append ((s.append (List.Sublist.refl _)).append (List.Sublist.refl _))

/-- What a step adds fits the threads. -/
structure RcPush (σ : RcStore) (g : Option RcReq) (i : RcI) (k push : List RcI) : Prop where
  typ : ∀ j ∈ push, rcTyped σ j
  sub : (push.flatMap RcI.pend).Sublist i.pend
  force : ∀ j ∈ push, j.forceful = true →
    i.forceful = true ∨ (∃ r, g = some r ∧ r.forced = true)
  steal : ∀ X Y d, push = X ++ .stealW d 0 :: Y →
    ∃ c, (c, d) ∈ (Y ++ k).flatMap RcI.pend ∧ (σ c).kind = .client
  noRetire : ∀ c, .retire c ∉ push

theorem RcShape.step {σ σ'} (h : RcShape σ (A ++ ⟨g, i :: k⟩ :: B))
    (kk : ∀ x, (σ' x).kind = (σ x).kind) (p : RcPush σ g i k push)
    (nr : ∀ c, i ≠ .retire c) : RcShape σ' (A ++ ⟨g, push ++ k⟩ :: B) := by
  have mem : ∀ t, t ∈ A ++ ⟨g, push ++ k⟩ :: B →
      t = ⟨g, push ++ k⟩ ∨ t ∈ A ++ ⟨g, i :: k⟩ :: B := by
    intro t ht
    simp only [List.mem_append, List.mem_cons] at ht ⊢
    rcases ht with h | h | h <;> simp [h]
  have old : (⟨g, i :: k⟩ : RcT) ∈ A ++ ⟨g, i :: k⟩ :: B := by simp
  constructor
  · intro j hj
    rw [typed_congr kk]
    rcases has_new (i := i) hj with h' | h'
    · exact h.typ j h'
    · exact p.typ j h'
  · exact h.nd.sublist (pends_sub p.sub)
  · intro t ht q hq
    rcases mem t ht with rfl | ht
    · refine h.own _ old q ?_
      simp only [RcT.pend, List.flatMap_append, List.flatMap_cons, List.mem_append] at hq ⊢
      exact hq.imp (fun x => p.sub.subset x) id
    · exact h.own t ht q hq
  · intro t ht j hj f
    rcases mem t ht with rfl | ht
    · have key : (i.forceful = true ∨ ∃ r, g = some r ∧ r.forced = true) ∨
          (j ∈ k) := by
        rcases List.mem_append.mp hj with h' | h'
        · exact .inl (p.force j h' f)
        · exact .inr h'
      have fin : (∃ r, g = some r ∧ r.forced = true) ∨ (∃ c, RcI.retire c ∈ i :: k) →
          (∃ r, g = some r ∧ r.forced = true) ∨ ∃ c, RcI.retire c ∈ push ++ k := by
        rintro (r | ⟨c, hc⟩)
        · exact .inl r
        · rcases List.mem_cons.mp hc with e | e
          · exact absurd e.symm (nr c)
          · exact .inr ⟨c, List.mem_append_right _ e⟩
      rcases key with (e | e) | e
      · exact fin (h.force _ old i List.mem_cons_self e)
      · exact .inl e
      · exact fin (h.force _ old j (List.mem_cons_of_mem _ e) f)
    · exact h.force t ht j hj f
  · intro t ht X Y d e
    simp only [kk]
    rcases mem t ht with rfl | ht
    · dsimp only at e
      rcases List.append_eq_append_iff.mp e with ⟨z, e1, e2⟩ | ⟨z, e1, e2⟩
      · -- in k
        exact h.steal _ old (i :: z) Y d (by simp [e2])
      · cases z with
        | nil =>
          simp only [List.nil_append] at e2
          exact h.steal _ old [i] Y d (by simp [← e2])
        | cons z0 z =>
          simp only [List.cons_append, List.cons.injEq] at e2
          obtain ⟨rfl, rfl⟩ := e2
          exact p.steal X z d e1
    · exact h.steal t ht X Y d e
  · have lift : ∀ t, t ∈ A ++ ⟨g, push ++ k⟩ :: B → t.todo ≠ [] →
        ∃ u, u ∈ A ++ ⟨g, i :: k⟩ :: B ∧ u.tag = t.tag ∧ u.todo ≠ [] := by
      intro t ht ne
      rcases mem t ht with rfl | ht
      · exact ⟨_, old, rfl, by simp⟩
      · exact ⟨t, ht, rfl, ne⟩
    intro t ht t' ht' r r' er er' ne ne' b f
    obtain ⟨u, hu, eu, nu⟩ := lift t ht ne
    obtain ⟨u', hu', eu', nu'⟩ := lift t' ht' ne'
    exact h.guard u hu u' hu' r r' (eu.trans er) (eu'.trans er') nu nu' b f
  · intro t ht c hc
    rcases mem t ht with rfl | ht2
    · have hk : RcI.retire c ∈ k := by
        rcases List.mem_append.mp hc with e | e
        · exact absurd e (p.noRetire c)
        · exact e
      obtain ⟨tg, em, X, eX, nX⟩ := h.retire _ old c (List.mem_cons_of_mem _ hk)
      refine ⟨tg, ?_, ?_⟩
      · intro t' ht' ng
        rcases mem t' ht' with rfl | ht'
        · exact absurd tg ng
        · exact em t' ht' ng
      · cases X with
        | nil => simp only [List.nil_append, List.cons.injEq] at eX
                 exact absurd eX.1 (nr c)
        | cons x X =>
          simp only [List.cons_append, List.cons.injEq] at eX
          obtain ⟨rfl, rfl⟩ := eX
          refine ⟨push ++ X, by simp, ?_⟩
          intro c' hc'
          rcases List.mem_append.mp hc' with e | e
          · exact p.noRetire c' e
          · exact nX c' (List.mem_cons_of_mem _ e)
    · obtain ⟨tg, em, X, eX, nX⟩ := h.retire t ht2 c hc
      refine ⟨tg, ?_, X, eX, nX⟩
      intro t' ht' ng
      rcases mem t' ht' with rfl | ht'
      · exact absurd (em _ old ng) (by simp)
      · exact em t' ht' ng
  · obtain ⟨m, ths, e, ng⟩ := h.main
    cases A with
    | nil =>
      simp only [List.nil_append, List.cons.injEq, RcT.mk.injEq] at e
      obtain ⟨⟨rfl, rfl⟩, rfl⟩ := e
      exact ⟨_, _, rfl, ng⟩
    | cons a A =>
      simp only [List.cons_append, List.cons.injEq] at e
      obtain ⟨rfl, rfl⟩ := e
      refine ⟨m, A ++ ⟨g, push ++ k⟩ :: B, rfl, ?_⟩
      intro t ht
      simp only [List.mem_append, List.mem_cons] at ht
      rcases ht with e | rfl | e
      · exact ng t (by simp [e])
      · exact ng ⟨g, i :: k⟩ (by simp)
      · exact ng t (by simp [e])
  · intro t ht r er
    simp only [kk]
    rcases mem t ht with rfl | ht
    · exact h.tags _ old r er
    · exact h.tags t ht r er

theorem mem_step {t} (ht : t ∈ A ++ ⟨g, push ++ k⟩ :: B) :
    t = ⟨g, push ++ k⟩ ∨ t ∈ A ++ ⟨g, i :: k⟩ :: B := by
  simp only [List.mem_append, List.mem_cons] at ht ⊢
  rcases ht with h | h | h <;> simp [h]

theorem mem_cur : (⟨g, i :: k⟩ : RcT) ∈ A ++ ⟨g, i :: k⟩ :: B := by simp

/-- The part of the invariant that no step of lists concerns. -/
theorem single_step {σ σ' : RcStore} (h : RcLinks σ (A ++ ⟨g, i :: k⟩ :: B))
    (p : RcPush σ g i k push) (kk : ∀ x, (σ' x).kind = (σ x).kind)
    (w : ∀ o a, a ∈ (σ' o).wr → a ∈ (σ o).wr) :
    ∀ t ∈ A ++ ⟨g, push ++ k⟩ :: B, ∀ r a b, t.tag = some r → (a, b) ∈ t.pend →
      (σ' a).kind = .client → r.broad = false → (∀ o, a ∉ (σ' o).wr) ∧
      ∀ b', (a, b') ∈ pends (A ++ ⟨g, push ++ k⟩ :: B) → b' = b := by
  intro t ht r a b er hp ka br
  rw [kk] at ka
  have key : (∀ o, a ∉ (σ o).wr) ∧
      ∀ b', (a, b') ∈ pends (A ++ ⟨g, i :: k⟩ :: B) → b' = b := by
    rcases mem_step (i := i) ht with rfl | ht
    · refine h.single _ mem_cur r a b er ?_ ka br
      simp only [RcT.pend, List.flatMap_append, List.flatMap_cons, List.mem_append] at hp ⊢
      exact hp.imp (fun x => p.sub.subset x) id
    · exact h.single t ht r a b er hp ka br
  exact ⟨fun o ho => key.1 o (w o a ho), fun b' hb => key.2 b' ((pends_sub p.sub).subset hb)⟩

theorem drains_step {σ σ' : RcStore} (h : RcLinks σ (A ++ ⟨g, i :: k⟩ :: B))
    (p : RcPush σ g i k push) (nr : ∀ c, i ≠ .retire c)
    (w : ∀ c, hasI (A ++ ⟨g, i :: k⟩ :: B) (.retire c) →
      ((σ c).wr = [] → (σ' c).wr = []) ∧ ((σ c).rd = [] → (σ' c).rd = []))
    (d1 : ∀ c, i = .drainW c → .drainW c ∈ push ∨ (σ' c).wr = [])
    (d2 : ∀ c, i = .drainR c → .drainR c ∈ push ∨ (σ' c).rd = []) :
    ∀ t ∈ A ++ ⟨g, push ++ k⟩ :: B, ∀ c, .retire c ∈ t.todo →
      (.drainW c ∈ t.todo ∨ (σ' c).wr = []) ∧ (.drainR c ∈ t.todo ∨ (σ' c).rd = []) := by
  intro t ht c hc
  rcases mem_step (i := i) ht with rfl | ht
  · have hk : RcI.retire c ∈ k := by
      rcases List.mem_append.mp hc with e | e
      · exact absurd e (p.noRetire c)
      · exact e
    have hh : hasI (A ++ ⟨g, i :: k⟩ :: B) (.retire c) := ⟨_, mem_cur, List.mem_cons_of_mem _ hk⟩
    obtain ⟨a, b⟩ := h.drains _ mem_cur c (List.mem_cons_of_mem _ hk)
    constructor
    · rcases a with a | a
      · rcases List.mem_cons.mp a with e | e
        · exact (d1 c e.symm).imp (List.mem_append_left _) id
        · exact .inl (List.mem_append_right _ e)
      · exact .inr ((w c hh).1 a)
    · rcases b with a | a
      · rcases List.mem_cons.mp a with e | e
        · exact (d2 c e.symm).imp (List.mem_append_left _) id
        · exact .inl (List.mem_append_right _ e)
      · exact .inr ((w c hh).2 a)
  · have hh : hasI (A ++ ⟨g, i :: k⟩ :: B) (.retire c) := ⟨t, ht, hc⟩
    obtain ⟨a, b⟩ := h.drains t ht c hc
    exact ⟨a.imp id (w c hh).1, b.imp id (w c hh).2⟩

theorem tagsU_step {σ σ' : RcStore} (h : RcLinks σ (A ++ ⟨g, i :: k⟩ :: B))
    (u : ∀ x, (σ' x).used = (σ x).used) :
    ∀ t ∈ A ++ ⟨g, push ++ k⟩ :: B, ∀ r, t.tag = some r → (σ' r.client).used = true := by
  intro t ht r er
  rw [u]
  rcases mem_step (i := i) ht with rfl | ht
  · exact h.tagsU _ mem_cur r er
  · exact h.tagsU t ht r er

/-- Steps that change no list. -/
theorem RcLinks.same {σ σ' : RcStore} (h : RcLinks σ (A ++ ⟨g, i :: k⟩ :: B))
    (er : ∀ x, (σ' x).rd = (σ x).rd) (ew : ∀ x, (σ' x).wr = (σ x).wr)
    (el : ∀ x, (σ' x).live = (σ x).live) (kk : ∀ x, (σ' x).kind = (σ x).kind)
    (eu : ∀ x, (σ' x).used = (σ x).used) (ep : ∀ x, (σ' x).pub = true → (σ x).live = true)
    (p : RcPush σ g i k push) (pr : ∀ j ∈ push, ∀ x ∈ j.refs, (σ x).live = true)
    (n2 : ∀ j ∈ push, ∀ a b, j ≠ .add2 a b ∧ j ≠ .cut2 a b)
    (ni : ∀ a b, i ≠ .add2 a b ∧ i ≠ .cut2 a b) (nr : ∀ c, i ≠ .retire c)
    (cc : ∀ a b, .cut1 a b ∈ push → (a, b) ∉ pends (A ++ ⟨g, i :: k⟩ :: B))
    (dd : ∀ a, .drainW a ∈ push ∨ .drainR a ∈ push → ∀ b, (σ a).kind = .client →
      (a, b) ∉ pends (A ++ ⟨g, i :: k⟩ :: B))
    (d1 : ∀ c, i = .drainW c → .drainW c ∈ push ∨ (σ c).wr = [])
    (d2 : ∀ c, i = .drainR c → .drainR c ∈ push ∨ (σ c).rd = []) :
    RcLinks σ' (A ++ ⟨g, push ++ k⟩ :: B) := by
  have h2 : ∀ a b, hasI (A ++ ⟨g, push ++ k⟩ :: B) (.add2 a b) ↔
      hasI (A ++ ⟨g, i :: k⟩ :: B) (.add2 a b) := by
    intro a b
    constructor
    · intro x
      rcases has_new (i := i) x with x | x
      · exact x
      · exact absurd rfl (n2 _ x a b).1
    · intro x
      rcases has_old (push := push) x with x | x
      · exact x
      · exact absurd x.symm (ni a b).1
  have h2' : ∀ a b, hasI (A ++ ⟨g, push ++ k⟩ :: B) (.cut2 a b) ↔
      hasI (A ++ ⟨g, i :: k⟩ :: B) (.cut2 a b) := by
    intro a b
    constructor
    · intro x
      rcases has_new (i := i) x with x | x
      · exact x
      · exact absurd rfl (n2 _ x a b).2
    · intro x
      rcases has_old (push := push) x with x | x
      · exact x
      · exact absurd x.symm (ni a b).2
  constructor
  · intro a b hb
    rw [er] at hb
    rw [el, el, fits_congr kk]
    exact h.rdL a b hb
  · intro a b hb
    rw [ew] at hb
    rw [el, el, fits_congr kk]
    exact h.wrL a b hb
  · intro j hj x hx
    rw [el]
    rcases has_new (i := i) hj with e | e
    · exact h.refsL j e x hx
    · exact pr j e x hx
  · intro a b hb
    rw [er] at hb
    rw [ew, h2]
    exact h.s1 a b hb
  · intro a b hb
    rw [ew] at hb
    rw [er, h2']
    exact h.s2 a b hb
  · intro a b hb
    rw [h2'] at hb
    rw [er]
    exact h.c2 a b hb
  · intro a b hb
    rw [h2] at hb
    rw [er]
    exact h.a2 a b hb
  · intro a b hb
    have hb' := (pends_sub p.sub).subset hb
    obtain ⟨x1, x2, x3, x4, x5⟩ := h.pnd a b hb'
    rw [ew, h2', er, h2, kk]
    refine ⟨x1, ?_, x3, ?_, x5⟩
    · intro y
      rcases has_new (i := i) y with y | y
      · exact x2 y
      · exact cc a b y hb'
    · intro ka
      refine ⟨?_, ?_⟩ <;> intro y <;> rcases has_new (i := i) y with y | y
      · exact (x4 ka).1 y
      · exact dd a (.inl y) b ka hb'
      · exact (x4 ka).2 y
      · exact dd a (.inr y) b ka hb'
  · exact single_step h p kk (fun o a x => by rw [ew] at x; exact x)
  · exact drains_step h p nr (fun c _ => ⟨fun x => by rw [ew]; exact x, fun x => by rw [er]; exact x⟩)
      (fun c x => by rw [ew]; exact d1 c x) (fun c x => by rw [er]; exact d2 c x)
  · intro a
    rw [el, eu]
    exact ⟨(h.used a).1, ep a⟩
  · exact tagsU_step h eu

theorem benign_push {l : Nat → Prop} {q : List RcI} (h : Harmless l q) (σ : RcStore) :
    (∀ j ∈ q, rcTyped σ j) ∧ q.flatMap RcI.pend = [] ∧ (∀ j ∈ q, j.forceful = false) ∧
    (∀ d, .stealW d 0 ∉ q) ∧ (∀ c, .retire c ∉ q) ∧
    (∀ j ∈ q, ∀ a b, j ≠ .add2 a b ∧ j ≠ .cut2 a b ∧ j ≠ .cut1 a b) ∧
    (∀ a, .drainW a ∉ q ∧ .drainR a ∉ q) := by
  have key : ∀ j ∈ q, j.benign = true := fun j hj => (h j hj).1
  refine ⟨?_, ?_, ?_, ?_, ?_, ?_, ?_⟩
  · intro j hj
    have := key j hj
    cases j <;> first | exact trivial | cases this
  · rw [List.flatMap_eq_nil_iff]
    intro j hj
    have := key j hj
    cases j <;> first | rfl | cases this
  · intro j hj
    have := key j hj
    cases j <;> first | rfl | cases this
  · intro d hd; cases key _ hd
  · intro d hd; cases key _ hd
  · intro j hj a b
    have := key j hj
    refine ⟨?_, ?_, ?_⟩ <;> intro e <;> subst e <;> cases this
  · intro a
    refine ⟨?_, ?_⟩ <;> intro hd <;> cases key _ hd

/-- Pushing only harmless things. -/
theorem RcPush.harmless {σ : RcStore} {l} (h : Harmless l push) : RcPush σ g i k push := by
  obtain ⟨b1, b2, b3, b4, b5, _⟩ := benign_push h σ
  refine ⟨b1, by rw [b2]; exact List.nil_sublist _, ?_, ?_, b5⟩
  · intro j hj f; rw [b3 j hj] at f; cases f
  · intro X Y d e
    exact absurd (by rw [e]; simp) (b4 d)

theorem rcPerform_pend (dn r) : (rcPerform dn r).flatMap RcI.pend = r.pairs := by
  unfold rcPerform
  split
  · rfl
  · rename_i c os f j hne
    have e : RcReq.pairs (.connect c os f j) = os.map fun o => (c, o) := by
      match os, hne with
      | [], _ => rfl
      | [o], hne => exact absurd rfl (hne o)
      | _ :: _ :: _, _ => rfl
    rw [e]
    simp only [List.flatMap_append, List.flatMap_cons, List.flatMap_nil, RcI.pend,
      List.append_nil, List.nil_append]
    clear hne e
    induction os with
    | nil => rfl
    | cons o os ih => simp [RcI.pend, ih]
  · rfl

theorem rcPerform_mem {dn r j} (h : j ∈ rcPerform dn r) :
    j = .born r.client ∨ j = .deref r.client ∨ (∃ o n, o ∈ r.consoles ∧ j = .state o r.client n) ∨
    ∃ a b f, j = .link a b f ∧ (a, b) ∈ r.pairs ∧ (f = true → r.forced = true) := by
  unfold rcPerform at h
  split at h
  · rename_i c o f jn
    simp only [List.mem_cons, List.not_mem_nil, or_false] at h
    rcases h with rfl | rfl | rfl | rfl | rfl
    · exact .inl rfl
    · exact .inr (.inr (.inr ⟨_, _, _, rfl, by simp [RcReq.pairs], id⟩))
    · exact .inr (.inr (.inr ⟨_, _, _, rfl, by simp [RcReq.pairs], id⟩))
    · exact .inr (.inr (.inl ⟨o, _, by simp [RcReq.consoles], rfl⟩))
    · exact .inr (.inl rfl)
  · rename_i c os f jn hne
    have e : RcReq.pairs (.connect c os f jn) = os.map fun o => (c, o) := by
      match os, hne with
      | [], _ => rfl
      | [o], hne => exact absurd rfl (hne o)
      | _ :: _ :: _, _ => rfl
    simp only [List.cons_append, List.mem_cons, List.mem_append, List.mem_flatMap,
      List.not_mem_nil, or_false] at h
    rcases h with rfl | ⟨o, ho, rfl | rfl⟩ | rfl
    · exact .inl rfl
    · refine .inr (.inr (.inr ⟨_, _, _, rfl, ?_, id⟩))
      rw [e]; exact List.mem_map.mpr ⟨o, ho, rfl⟩
    · exact .inr (.inr (.inl ⟨o, _, ho, rfl⟩))
    · exact .inr (.inl rfl)
  · rename_i c o
    simp only [List.mem_cons, List.not_mem_nil, or_false] at h
    rcases h with rfl | rfl | rfl | rfl
    · exact .inl rfl
    · exact .inr (.inr (.inr ⟨_, _, _, rfl, by simp [RcReq.pairs], by intro x; cases x⟩))
    · exact .inr (.inr (.inl ⟨o, _, by simp [RcReq.consoles], rfl⟩))
    · exact .inr (.inl rfl)

theorem pairs_mem {r : RcReq} {a b} (h : (a, b) ∈ r.pairs) :
    (a = r.client ∧ b ∈ r.consoles) ∨ (b = r.client ∧ a ∈ r.consoles) := by
  unfold RcReq.pairs at h
  split at h
  · simp only [List.mem_cons, Prod.mk.injEq, List.not_mem_nil, or_false] at h
    rcases h with ⟨rfl, rfl⟩ | ⟨rfl, rfl⟩
    · exact .inl ⟨rfl, by simp [RcReq.consoles]⟩
    · exact .inr ⟨rfl, by simp [RcReq.consoles]⟩
  · obtain ⟨o, ho, e⟩ := List.mem_map.mp h
    injection e with e1 e2
    subst e1 e2
    exact .inl ⟨rfl, ho⟩
  · rw [List.mem_singleton] at h
    injection h with h1 h2
    subst h1 h2
    exact .inr ⟨rfl, by simp [RcReq.consoles]⟩

/-- Both parts of the invariant. -/
structure RcInv (σ : RcStore) (T : List RcT) : Prop where
  shape : RcShape σ T
  links : RcLinks σ T

/-- A client that writes to a console has no links to be made while it may be
    unlinked by force. -/
theorem steal_free {σ : RcStore} {d x} (h : RcInv σ (A ++ ⟨g, .stealW d 0 :: k⟩ :: B))
    (hx : x ∈ (σ d).wr) : (σ x).kind = .client ∧
    ∀ b, (x, b) ∉ pends (A ++ ⟨g, .stealW d 0 :: k⟩ :: B) := by
  have kd : (σ d).kind = .console := h.shape.typ _ has_head
  have kx : (σ x).kind = .client := by
    rcases (h.links.wrL x d hx).2.2 with ⟨e, _⟩ | ⟨_, e⟩ | ⟨_, e⟩
    · exact e
    · rw [kd] at e; cases e
    · rw [kd] at e; cases e
  refine ⟨kx, ?_⟩
  intro b hb
  obtain ⟨t, ht, hp⟩ := List.mem_flatMap.mp hb
  obtain ⟨r, er, hr⟩ := h.shape.own t ht _ hp
  have cl : ∀ t ∈ A ++ ⟨g, .stealW d 0 :: k⟩ :: B, ∀ r a b, t.tag = some r → (a, b) ∈ r.pairs →
      (σ a).kind = .client → a = r.client := by
    intro t ht r a b er hr ka
    rcases pairs_mem hr with ⟨e, _⟩ | ⟨_, e⟩
    · exact e
    · rw [(h.shape.tags t ht r er).2 a e] at ka; cases ka
  have ex := cl t ht r x b er hr kx
  cases br : r.broad with
  | false => exact (h.links.single t ht r x b er hp kx br).1 d hx
  | true =>
    have hf := h.shape.force _ (mem_cur (A := A) (B := B)) (.stealW d 0) List.mem_cons_self rfl
    obtain ⟨c, hc, kc⟩ := h.shape.steal _ (mem_cur (A := A) (B := B)) [] k d rfl
    have hc' : (c, d) ∈ (⟨g, .stealW d 0 :: k⟩ : RcT).pend := by
      simp only [RcT.pend, List.flatMap_cons, List.mem_append]; exact .inr hc
    obtain ⟨r', er', hr'⟩ := h.shape.own _ mem_cur _ hc'
    have ec := cl _ mem_cur r' c d er' hr' kc
    have hg : r'.forced = true := by
      rcases hf with ⟨r2, e2, f2⟩ | ⟨c2, h2⟩
      · rw [er'] at e2; injection e2 with e2; rw [e2]; exact f2
      · have := (h.shape.retire _ mem_cur c2 h2).1
        rw [er'] at this; cases this
    have ne : t.todo ≠ [] := by
      intro e; rw [RcT.pend, e] at hp; cases hp
    have same := h.shape.guard t ht _ mem_cur r r' er er' ne (by simp) br hg
    have pc : (c, d) ∈ pends (A ++ ⟨g, .stealW d 0 :: k⟩ :: B) :=
      List.mem_flatMap.mpr ⟨_, mem_cur, hc'⟩
    have : c = x := by rw [ec, ex, same]
    exact (h.links.pnd c d pc).1 (by rw [this]; exact hx)

theorem RcPush.nil {σ : RcStore} : RcPush σ g i k [] := RcPush.harmless (l := fun _ => True) harmless_nil

theorem RcPush.nosteal {σ : RcStore} (t : ∀ j ∈ push, rcTyped σ j)
    (s : (push.flatMap RcI.pend).Sublist i.pend)
    (f : ∀ j ∈ push, j.forceful = true → i.forceful = true ∨ (∃ r, g = some r ∧ r.forced = true))
    (ns : ∀ d, .stealW d 0 ∉ push) (nr : ∀ c, .retire c ∉ push) : RcPush σ g i k push :=
  ⟨t, s, f, fun X Y d e => absurd (by rw [e]; simp) (ns d), nr⟩

/-- Steps that change no list or liveness at all. -/
theorem RcInv.same {σ : RcStore} (h : RcInv σ (A ++ ⟨g, i :: k⟩ :: B))
    (p : RcPush σ g i k push) (pr : ∀ j ∈ push, ∀ x ∈ j.refs, (σ x).live = true)
    (n2 : ∀ j ∈ push, ∀ a b, j ≠ .add2 a b ∧ j ≠ .cut2 a b)
    (ni : ∀ a b, i ≠ .add2 a b ∧ i ≠ .cut2 a b) (nr : ∀ c, i ≠ .retire c)
    (cc : ∀ a b, .cut1 a b ∈ push → (a, b) ∉ pends (A ++ ⟨g, i :: k⟩ :: B))
    (dd : ∀ a, .drainW a ∈ push ∨ .drainR a ∈ push → ∀ b, (σ a).kind = .client →
      (a, b) ∉ pends (A ++ ⟨g, i :: k⟩ :: B))
    (d1 : ∀ c, i = .drainW c → .drainW c ∈ push ∨ (σ c).wr = [])
    (d2 : ∀ c, i = .drainR c → .drainR c ∈ push ∨ (σ c).rd = []) :
    RcInv σ (A ++ ⟨g, push ++ k⟩ :: B) :=
  ⟨h.shape.step (fun _ => rfl) p nr,
   h.links.same (fun _ => rfl) (fun _ => rfl) (fun _ => rfl) (fun _ => rfl) (fun _ => rfl)
     (fun x => (h.links.used x).2) p pr n2 ni nr cc dd d1 d2⟩

theorem upd_same {σ : RcStore} {x f} : rcUpd σ x f x = f (σ x) := if_pos rfl
theorem upd_ne {σ : RcStore} {x y f} (h : y ≠ x) : rcUpd σ x f y = σ y := if_neg h

theorem RcInv.add1 {σ : RcStore} {a b} (h : RcInv σ (A ++ ⟨g, .add1 a b :: k⟩ :: B)) :
    RcInv (rcUpd σ a fun o => { o with rd := o.rd ++ [b] }) (A ++ ⟨g, [.add2 a b] ++ k⟩ :: B) := by
  have kk : ∀ x, (rcUpd σ a (fun o => { o with rd := o.rd ++ [b] }) x).kind = (σ x).kind :=
    (AStep.add1 (σ := σ) (a := a) (b := b)).kind
  have el : ∀ x, (rcUpd σ a (fun o => { o with rd := o.rd ++ [b] }) x).live = (σ x).live := by
    intro x; unfold rcUpd; split <;> rfl
  have ew : ∀ x, (rcUpd σ a (fun o => { o with rd := o.rd ++ [b] }) x).wr = (σ x).wr := by
    intro x; unfold rcUpd; split <;> rfl
  have eu : ∀ x, (rcUpd σ a (fun o => { o with rd := o.rd ++ [b] }) x).used = (σ x).used := by
    intro x; unfold rcUpd; split <;> rfl
  have ep : ∀ x, (rcUpd σ a (fun o => { o with rd := o.rd ++ [b] }) x).pub = (σ x).pub := by
    intro x; unfold rcUpd; split <;> rfl
  have rd' : ∀ x y, y ∈ (rcUpd σ a (fun o => { o with rd := o.rd ++ [b] }) x).rd ↔
      y ∈ (σ x).rd ∨ (x = a ∧ y = b) := by
    intro x y
    unfold rcUpd
    split
    · rename_i e; subst e; simp
    · rename_i e; simp [e]
  generalize rcUpd σ a (fun o => { o with rd := o.rd ++ [b] }) = σ' at *
  have p : RcPush σ g (.add1 a b) k [.add2 a b] := by
    refine RcPush.nosteal ?_ (List.Sublist.refl _) ?_ ?_ ?_
    · intro j hj; rw [List.mem_singleton.mp hj]
      exact h.shape.typ (.add1 a b) has_head
    · intro j hj f; rw [List.mem_singleton.mp hj] at f; cases f
    · intro d hd; cases List.mem_singleton.mp hd
    · intro d hd; cases List.mem_singleton.mp hd
  have pn : (a, b) ∈ pends (A ++ ⟨g, .add1 a b :: k⟩ :: B) :=
    List.mem_flatMap.mpr ⟨_, mem_cur, by simp [RcT.pend, RcI.pend]⟩
  have pab := h.links.pnd a b pn
  have hn : ∀ {j}, hasI (A ++ ⟨g, [.add2 a b] ++ k⟩ :: B) j →
      hasI (A ++ ⟨g, .add1 a b :: k⟩ :: B) j ∨ j = .add2 a b := by
    intro j hj
    exact (has_new hj).imp id List.mem_singleton.mp
  have ho : ∀ {j}, j ≠ .add1 a b → hasI (A ++ ⟨g, .add1 a b :: k⟩ :: B) j →
      hasI (A ++ ⟨g, [.add2 a b] ++ k⟩ :: B) j := by
    intro j ne hj
    exact (has_old hj).resolve_right ne
  have h2 : hasI (A ++ ⟨g, [.add2 a b] ++ k⟩ :: B) (.add2 a b) := has_push (by simp)
  refine ⟨h.shape.step kk p (by intro c e; cases e), ?_⟩
  have L := h.links
  constructor
  · intro x y hy
    rw [el, el, fits_congr kk]
    rcases (rd' x y).mp hy with e | ⟨rfl, rfl⟩
    · exact L.rdL x y e
    · exact ⟨L.refsL _ has_head _ (by simp [RcI.refs]), L.refsL _ has_head _ (by simp [RcI.refs]),
        h.shape.typ _ has_head⟩
  · intro x y hy
    rw [ew] at hy
    rw [el, el, fits_congr kk]
    exact L.wrL x y hy
  · intro j hj x hx
    rw [el]
    rcases hn hj with e | rfl
    · exact L.refsL j e x hx
    · exact L.refsL (.add1 a b) has_head x hx
  · intro x y hy
    rw [ew]
    rcases (rd' x y).mp hy with e | ⟨rfl, rfl⟩
    · exact (L.s1 x y e).imp id (ho (by intro c; cases c))
    · exact .inr h2
  · intro x y hy
    rw [ew] at hy
    rw [rd']
    exact (L.s2 x y hy).imp .inl (ho (by intro c; cases c))
  · intro x y hy hr
    have hy' := (hn hy).resolve_right (by intro c; cases c)
    rcases (rd' x y).mp hr with e | ⟨rfl, rfl⟩
    · exact L.c2 x y hy' e
    · exact pab.2.2.1 hy'
  · intro x y hy
    rw [rd']
    rcases hn hy with e | e
    · exact .inl (L.a2 x y e)
    · injection e with e1 e2
      exact .inr ⟨e1, e2⟩
  · intro x y hy
    obtain ⟨x1, x2, x3, x4, x5⟩ := L.pnd x y ((pends_sub p.sub).subset hy)
    rw [ew, kk]
    refine ⟨x1, fun z => ?_, fun z => ?_, fun ka => ⟨fun z => ?_, fun z => ?_⟩, fun z => ?_⟩
    · exact x2 ((hn z).resolve_right (by intro c; cases c))
    · exact x3 ((hn z).resolve_right (by intro c; cases c))
    · exact (x4 ka).1 ((hn z).resolve_right (by intro c; cases c))
    · exact (x4 ka).2 ((hn z).resolve_right (by intro c; cases c))
    · rcases (rd' x y).mp z with e | ⟨rfl, rfl⟩
      · exact ho (by intro c; cases c) (x5 e)
      · exact h2
  · exact single_step L p kk (fun o c z => by rw [ew] at z; exact z)
  · refine drains_step L p (by intro c e; cases e) ?_ (by intro c e; cases e) (by intro c e; cases e)
    intro c ⟨t, ht, hc⟩
    refine ⟨fun z => by rw [ew]; exact z, ?_⟩
    obtain ⟨r, er, _⟩ := h.shape.own _ (mem_cur (A := A) (B := B)) (a, b) (by simp [RcT.pend, RcI.pend])
    have := (h.shape.retire t ht c hc).2.1 _ mem_cur (by rw [er]; intro z; cases z)
    cases this
  · intro x
    rw [el, eu, ep]
    exact L.used x
  · exact tagsU_step L eu

theorem RcInv.add2 {σ : RcStore} {a b} (h : RcInv σ (A ++ ⟨g, .add2 a b :: k⟩ :: B)) :
    RcInv (rcUpd σ b fun o => { o with wr := o.wr ++ [a] }) (A ++ ⟨g, [] ++ k⟩ :: B) := by
  have kk : ∀ x, (rcUpd σ b (fun o => { o with wr := o.wr ++ [a] }) x).kind = (σ x).kind :=
    (AStep.add2 (σ := σ) (a := a) (b := b)).kind
  have el : ∀ x, (rcUpd σ b (fun o => { o with wr := o.wr ++ [a] }) x).live = (σ x).live := by
    intro x; unfold rcUpd; split <;> rfl
  have er : ∀ x, (rcUpd σ b (fun o => { o with wr := o.wr ++ [a] }) x).rd = (σ x).rd := by
    intro x; unfold rcUpd; split <;> rfl
  have eu : ∀ x, (rcUpd σ b (fun o => { o with wr := o.wr ++ [a] }) x).used = (σ x).used := by
    intro x; unfold rcUpd; split <;> rfl
  have ep : ∀ x, (rcUpd σ b (fun o => { o with wr := o.wr ++ [a] }) x).pub = (σ x).pub := by
    intro x; unfold rcUpd; split <;> rfl
  have wr' : ∀ x y, y ∈ (rcUpd σ b (fun o => { o with wr := o.wr ++ [a] }) x).wr ↔
      y ∈ (σ x).wr ∨ (x = b ∧ y = a) := by
    intro x y
    unfold rcUpd
    split
    · rename_i e; subst e; simp
    · rename_i e; simp [e]
  generalize rcUpd σ b (fun o => { o with wr := o.wr ++ [a] }) = σ' at *
  have p : RcPush σ g (.add2 a b) k [] := RcPush.nil
  have pn : (a, b) ∈ pends (A ++ ⟨g, .add2 a b :: k⟩ :: B) :=
    List.mem_flatMap.mpr ⟨_, mem_cur, by simp [RcT.pend, RcI.pend]⟩
  have gone : (a, b) ∉ pends (A ++ ⟨g, [] ++ k⟩ :: B) := by
    have nd := h.shape.nd
    simp only [pends, List.flatMap_append, List.flatMap_cons, RcT.pend, RcI.pend,
      List.singleton_append, List.cons_append, List.nil_append] at nd ⊢
    rw [List.nodup_append] at nd
    obtain ⟨_, n2, n3⟩ := nd
    intro z
    rcases List.mem_append.mp z with z | z
    · exact n3 _ z _ List.mem_cons_self rfl
    · exact (List.nodup_cons.mp n2).1 z
  have hn : ∀ {j}, hasI (A ++ ⟨g, [] ++ k⟩ :: B) j →
      hasI (A ++ ⟨g, .add2 a b :: k⟩ :: B) j := by
    intro j hj
    exact (has_new hj).resolve_right (by intro c; cases c)
  have ho : ∀ {j}, j ≠ .add2 a b → hasI (A ++ ⟨g, .add2 a b :: k⟩ :: B) j →
      hasI (A ++ ⟨g, [] ++ k⟩ :: B) j := by
    intro j ne hj
    exact (has_old hj).resolve_right ne
  refine ⟨h.shape.step kk p (by intro c e; cases e), ?_⟩
  have L := h.links
  constructor
  · intro x y hy
    rw [er] at hy
    rw [el, el, fits_congr kk]
    exact L.rdL x y hy
  · intro x y hy
    rw [el, el, fits_congr kk]
    rcases (wr' y x).mp hy with e | ⟨rfl, rfl⟩
    · exact L.wrL x y e
    · exact ⟨L.refsL _ has_head _ (by simp [RcI.refs]), L.refsL _ has_head _ (by simp [RcI.refs]),
        h.shape.typ _ has_head⟩
  · intro j hj x hx
    rw [el]
    exact L.refsL j (hn hj) x hx
  · intro x y hy
    rw [er] at hy
    rw [wr']
    rcases L.s1 x y hy with e | e
    · exact .inl (.inl e)
    · by_cases c : x = a ∧ y = b
      · exact .inl (.inr ⟨c.2, c.1⟩)
      · refine .inr (ho ?_ e)
        intro z
        injection z with z1 z2
        exact c ⟨z1, z2⟩
  · intro x y hy
    rw [er]
    rcases (wr' y x).mp hy with e | ⟨rfl, rfl⟩
    · exact (L.s2 x y e).imp id (ho (by intro c; cases c))
    · exact .inl (L.a2 _ _ has_head)
  · intro x y hy
    rw [er]
    exact L.c2 x y (hn hy)
  · intro x y hy
    rw [er]
    exact L.a2 x y (hn hy)
  · intro x y hy
    obtain ⟨x1, x2, x3, x4, x5⟩ := L.pnd x y ((pends_sub p.sub).subset hy)
    rw [er, kk]
    have ne : ¬ (x = a ∧ y = b) := by
      rintro ⟨rfl, rfl⟩; exact gone hy
    refine ⟨fun z => ?_, fun z => x2 (hn z), fun z => x3 (hn z),
      fun ka => ⟨fun z => (x4 ka).1 (hn z), fun z => (x4 ka).2 (hn z)⟩, fun z => ?_⟩
    · rcases (wr' y x).mp z with e | ⟨e1, e2⟩
      · exact x1 e
      · exact ne ⟨e2, e1⟩
    · refine ho ?_ (x5 z)
      intro w
      injection w with w1 w2
      exact ne ⟨w1, w2⟩
  · intro t ht r x y et hp ka br
    rw [kk] at ka
    have key : (∀ o, x ∉ (σ o).wr) ∧
        ∀ y', (x, y') ∈ pends (A ++ ⟨g, .add2 a b :: k⟩ :: B) → y' = y := by
      rcases mem_step (i := .add2 a b) ht with rfl | ht
      · refine L.single _ mem_cur r x y et ?_ ka br
        simp only [RcT.pend, List.flatMap_append, List.flatMap_cons, List.mem_append] at hp ⊢
        exact hp.imp (fun z => p.sub.subset z) id
      · exact L.single t ht r x y et hp ka br
    have pxy : (x, y) ∈ pends (A ++ ⟨g, [] ++ k⟩ :: B) := List.mem_flatMap.mpr ⟨t, ht, hp⟩
    refine ⟨?_, fun y' hy => key.2 y' ((pends_sub p.sub).subset hy)⟩
    intro o z
    rcases (wr' o x).mp z with e | ⟨rfl, rfl⟩
    · exact key.1 o e
    · have := key.2 _ pn
      subst this
      exact gone pxy
  · refine drains_step L p (by intro c e; cases e) ?_ (by intro c e; cases e) (by intro c e; cases e)
    intro c ⟨t, ht, hc⟩
    refine ⟨?_, fun z => by rw [er]; exact z⟩
    obtain ⟨r, er, _⟩ := h.shape.own _ (mem_cur (A := A) (B := B)) (a, b) (by simp [RcT.pend, RcI.pend])
    have := (h.shape.retire t ht c hc).2.1 _ mem_cur (by rw [er]; intro z; cases z)
    cases this
  · intro x
    rw [el, eu, ep]
    exact L.used x
  · exact tagsU_step L eu

theorem RcInv.cut1 {σ : RcStore} {a b} (h : RcInv σ (A ++ ⟨g, .cut1 a b :: k⟩ :: B)) :
    RcInv (rcUpd σ a fun o => { o with rd := o.rd.filter (· ≠ b) })
      (A ++ ⟨g, [.cut2 a b] ++ k⟩ :: B) := by
  have kk : ∀ x, (rcUpd σ a (fun o => { o with rd := o.rd.filter (· ≠ b) }) x).kind = (σ x).kind :=
    (AStep.cut1 (σ := σ) (a := a) (b := b)).kind
  have el : ∀ x, (rcUpd σ a (fun o => { o with rd := o.rd.filter (· ≠ b) }) x).live = (σ x).live := by
    intro x; unfold rcUpd; split <;> rfl
  have ew : ∀ x, (rcUpd σ a (fun o => { o with rd := o.rd.filter (· ≠ b) }) x).wr = (σ x).wr := by
    intro x; unfold rcUpd; split <;> rfl
  have eu : ∀ x, (rcUpd σ a (fun o => { o with rd := o.rd.filter (· ≠ b) }) x).used = (σ x).used := by
    intro x; unfold rcUpd; split <;> rfl
  have ep : ∀ x, (rcUpd σ a (fun o => { o with rd := o.rd.filter (· ≠ b) }) x).pub = (σ x).pub := by
    intro x; unfold rcUpd; split <;> rfl
  have rd' : ∀ x y, y ∈ (rcUpd σ a (fun o => { o with rd := o.rd.filter (· ≠ b) }) x).rd ↔
      y ∈ (σ x).rd ∧ ¬ (x = a ∧ y = b) := by
    intro x y
    unfold rcUpd
    split
    · rename_i e; subst e; simp
    · rename_i e; simp [e]
  have rd0 : ∀ x, (σ x).rd = [] →
      (rcUpd σ a (fun o => { o with rd := o.rd.filter (· ≠ b) }) x).rd = [] := by
    intro x e
    unfold rcUpd
    split
    · simp [e]
    · exact e
  generalize rcUpd σ a (fun o => { o with rd := o.rd.filter (· ≠ b) }) = σ' at *
  have p : RcPush σ g (.cut1 a b) k [.cut2 a b] := by
    refine RcPush.nosteal ?_ (List.Sublist.refl _) ?_ ?_ ?_
    · intro j hj; rw [List.mem_singleton.mp hj]
      exact h.shape.typ (.cut1 a b) has_head
    · intro j hj f; exact .inl rfl
    · intro d hd; cases List.mem_singleton.mp hd
    · intro d hd; cases List.mem_singleton.mp hd
  have hn : ∀ {j}, hasI (A ++ ⟨g, [.cut2 a b] ++ k⟩ :: B) j →
      hasI (A ++ ⟨g, .cut1 a b :: k⟩ :: B) j ∨ j = .cut2 a b := by
    intro j hj
    exact (has_new hj).imp id List.mem_singleton.mp
  have ho : ∀ {j}, j ≠ .cut1 a b → hasI (A ++ ⟨g, .cut1 a b :: k⟩ :: B) j →
      hasI (A ++ ⟨g, [.cut2 a b] ++ k⟩ :: B) j := by
    intro j ne hj
    exact (has_old hj).resolve_right ne
  have h2 : hasI (A ++ ⟨g, [.cut2 a b] ++ k⟩ :: B) (.cut2 a b) := has_push (by simp)
  have L := h.links
  have npend : (a, b) ∉ pends (A ++ ⟨g, .cut1 a b :: k⟩ :: B) :=
    fun z => (L.pnd a b z).2.1 has_head
  have add2pend : ∀ x y, hasI (A ++ ⟨g, .cut1 a b :: k⟩ :: B) (.add2 x y) →
      (x, y) ∈ pends (A ++ ⟨g, .cut1 a b :: k⟩ :: B) := by
    rintro x y ⟨t, ht, hj⟩
    exact List.mem_flatMap.mpr ⟨t, ht, List.mem_flatMap.mpr ⟨_, hj, List.mem_singleton.mpr rfl⟩⟩
  refine ⟨h.shape.step kk p (by intro c e; cases e), ?_⟩
  constructor
  · intro x y hy
    rw [el, el, fits_congr kk]
    exact L.rdL x y ((rd' x y).mp hy).1
  · intro x y hy
    rw [ew] at hy
    rw [el, el, fits_congr kk]
    exact L.wrL x y hy
  · intro j hj x hx
    rw [el]
    rcases hn hj with e | rfl
    · exact L.refsL j e x hx
    · exact L.refsL (.cut1 a b) has_head x hx
  · intro x y hy
    rw [ew]
    exact (L.s1 x y ((rd' x y).mp hy).1).imp id (ho (by intro c; cases c))
  · intro x y hy
    rw [ew] at hy
    rw [rd']
    by_cases c : x = a ∧ y = b
    · obtain ⟨rfl, rfl⟩ := c
      exact .inr h2
    · exact (L.s2 x y hy).imp (fun z => ⟨z, c⟩) (ho (by intro c; cases c))
  · intro x y hy hr
    obtain ⟨r1, r2⟩ := (rd' x y).mp hr
    rcases hn hy with e | e
    · exact L.c2 x y e r1
    · injection e with e1 e2
      exact r2 ⟨e1, e2⟩
  · intro x y hy
    have hy' := (hn hy).resolve_right (by intro c; cases c)
    rw [rd']
    refine ⟨L.a2 x y hy', ?_⟩
    rintro ⟨rfl, rfl⟩
    exact npend (add2pend _ _ hy')
  · intro x y hy
    have hp := (pends_sub p.sub).subset hy
    obtain ⟨x1, x2, x3, x4, x5⟩ := L.pnd x y hp
    rw [ew, kk]
    refine ⟨x1, fun z => ?_, fun z => ?_, fun ka => ⟨fun z => ?_, fun z => ?_⟩, fun z => ?_⟩
    · exact x2 ((hn z).resolve_right (by intro c; cases c))
    · rcases hn z with e | e
      · exact x3 e
      · injection e with e1 e2
        subst e1 e2
        exact npend hp
    · exact (x4 ka).1 ((hn z).resolve_right (by intro c; cases c))
    · exact (x4 ka).2 ((hn z).resolve_right (by intro c; cases c))
    · exact ho (by intro c; cases c) (x5 ((rd' x y).mp z).1)
  · exact single_step L p kk (fun o c z => by rw [ew] at z; exact z)
  · exact drains_step L p (by intro c e; cases e)
      (fun c _ => ⟨fun z => by rw [ew]; exact z, rd0 c⟩)
      (by intro c e; cases e) (by intro c e; cases e)
  · intro x
    rw [el, eu, ep]
    exact L.used x
  · exact tagsU_step L eu

theorem RcInv.cut2 {σ : RcStore} {a b} (h : RcInv σ (A ++ ⟨g, .cut2 a b :: k⟩ :: B))
    (q : Harmless (fun x => x = a ∨ x = b) push) :
    RcInv (rcUpd σ b fun o => { o with wr := o.wr.filter (· ≠ a) })
      (A ++ ⟨g, push ++ k⟩ :: B) := by
  have kk : ∀ x, (rcUpd σ b (fun o => { o with wr := o.wr.filter (· ≠ a) }) x).kind = (σ x).kind :=
    (AStep.cut2 (σ := σ) (a := a) (b := b) q).kind
  have el : ∀ x, (rcUpd σ b (fun o => { o with wr := o.wr.filter (· ≠ a) }) x).live = (σ x).live := by
    intro x; unfold rcUpd; split <;> rfl
  have er : ∀ x, (rcUpd σ b (fun o => { o with wr := o.wr.filter (· ≠ a) }) x).rd = (σ x).rd := by
    intro x; unfold rcUpd; split <;> rfl
  have eu : ∀ x, (rcUpd σ b (fun o => { o with wr := o.wr.filter (· ≠ a) }) x).used = (σ x).used := by
    intro x; unfold rcUpd; split <;> rfl
  have ep : ∀ x, (rcUpd σ b (fun o => { o with wr := o.wr.filter (· ≠ a) }) x).pub = (σ x).pub := by
    intro x; unfold rcUpd; split <;> rfl
  have wr' : ∀ x y, y ∈ (rcUpd σ b (fun o => { o with wr := o.wr.filter (· ≠ a) }) x).wr ↔
      y ∈ (σ x).wr ∧ ¬ (x = b ∧ y = a) := by
    intro x y
    unfold rcUpd
    split
    · rename_i e; subst e; simp
    · rename_i e; simp [e]
  have wr0 : ∀ x, (σ x).wr = [] →
      (rcUpd σ b (fun o => { o with wr := o.wr.filter (· ≠ a) }) x).wr = [] := by
    intro x e
    unfold rcUpd
    split
    · simp [e]
    · exact e
  generalize rcUpd σ b (fun o => { o with wr := o.wr.filter (· ≠ a) }) = σ' at *
  have p : RcPush σ g (.cut2 a b) k push := RcPush.harmless q
  obtain ⟨_, _, _, _, _, b6, b7⟩ := benign_push q σ
  have hn : ∀ {j}, hasI (A ++ ⟨g, push ++ k⟩ :: B) j →
      hasI (A ++ ⟨g, .cut2 a b :: k⟩ :: B) j ∨ j ∈ push := has_new
  have ho : ∀ {j}, j ≠ .cut2 a b → hasI (A ++ ⟨g, .cut2 a b :: k⟩ :: B) j →
      hasI (A ++ ⟨g, push ++ k⟩ :: B) j := by
    intro j ne hj
    exact (has_old hj).resolve_right ne
  have L := h.links
  refine ⟨h.shape.step kk p (by intro c e; cases e), ?_⟩
  constructor
  · intro x y hy
    rw [er] at hy
    rw [el, el, fits_congr kk]
    exact L.rdL x y hy
  · intro x y hy
    rw [el, el, fits_congr kk]
    exact L.wrL x y ((wr' y x).mp hy).1
  · intro j hj x hx
    rw [el]
    rcases hn hj with e | e
    · exact L.refsL j e x hx
    · refine L.refsL (.cut2 a b) has_head x ?_
      rcases (q j e).2 x hx with rfl | rfl <;> simp [RcI.refs]
  · intro x y hy
    rw [er] at hy
    rw [wr']
    by_cases c : x = a ∧ y = b
    · obtain ⟨rfl, rfl⟩ := c
      exact absurd hy (L.c2 _ _ has_head)
    · refine (L.s1 x y hy).imp (fun z => ⟨z, fun w => c ⟨w.2, w.1⟩⟩) (ho (by intro c; cases c))
  · intro x y hy
    obtain ⟨y1, y2⟩ := (wr' y x).mp hy
    rw [er]
    refine (L.s2 x y y1).imp id (ho ?_)
    intro z
    injection z with z1 z2
    exact y2 ⟨z2, z1⟩
  · intro x y hy
    rw [er]
    exact L.c2 x y ((hn hy).resolve_right fun z => (b6 _ z x y).2.1 rfl)
  · intro x y hy
    rw [er]
    exact L.a2 x y ((hn hy).resolve_right fun z => (b6 _ z x y).1 rfl)
  · intro x y hy
    obtain ⟨x1, x2, x3, x4, x5⟩ := L.pnd x y ((pends_sub p.sub).subset hy)
    rw [er, kk]
    refine ⟨fun z => x1 ((wr' y x).mp z).1, fun z => ?_, fun z => ?_,
      fun ka => ⟨fun z => ?_, fun z => ?_⟩, fun z => ?_⟩
    · exact x2 ((hn z).resolve_right fun z => (b6 _ z x y).2.2 rfl)
    · exact x3 ((hn z).resolve_right fun z => (b6 _ z x y).2.1 rfl)
    · exact (x4 ka).1 ((hn z).resolve_right (b7 x).1)
    · exact (x4 ka).2 ((hn z).resolve_right (b7 x).2)
    · exact ho (by intro c; cases c) (x5 z)
  · exact single_step L p kk (fun o c z => ((wr' o c).mp z).1)
  · exact drains_step L p (by intro c e; cases e)
      (fun c _ => ⟨wr0 c, fun z => by rw [er]; exact z⟩)
      (by intro c e; cases e) (by intro c e; cases e)
  · intro x
    rw [el, eu, ep]
    exact L.used x
  · exact tagsU_step L eu

/-- When nobody has anything to do. -/
theorem RcInv.ofEmpty {σ : RcStore} {T : List RcT} (e : ∀ t ∈ T, t.todo = [])
    (main : ∃ m ths, T = ⟨none, m⟩ :: ths ∧ ∀ t ∈ ths, t.tag ≠ none)
    (tags : ∀ t ∈ T, ∀ r, t.tag = some r → (σ r.client).kind = .client ∧
      ∀ o ∈ r.consoles, (σ o).kind = .console)
    (sym : rcSym σ)
    (rdL : ∀ a b, b ∈ (σ a).rd → (σ a).live = true ∧ (σ b).live = true ∧ rcFits σ a b)
    (used : ∀ a, ((σ a).live = true → (σ a).used = true) ∧
      ((σ a).pub = true → (σ a).live = true))
    (tagsU : ∀ t ∈ T, ∀ r, t.tag = some r → (σ r.client).used = true) : RcInv σ T := by
  have no : ∀ i, ¬ hasI T i := by
    rintro i ⟨t, ht, hi⟩
    rw [e t ht] at hi; cases hi
  have np : ∀ t ∈ T, t.pend = [] := by
    intro t ht; rw [RcT.pend, e t ht]; rfl
  have ps : pends T = [] := by
    rw [pends, List.flatMap_eq_nil_iff]; exact np
  constructor
  · refine ⟨fun i h => absurd h (no i), by rw [ps]; exact List.nodup_nil, ?_, ?_, ?_, ?_, ?_, main, tags⟩
    · intro t ht p hp; rw [np t ht] at hp; cases hp
    · intro t ht i hi; exact absurd ⟨t, ht, hi⟩ (no i)
    · intro t ht X Y d h; rw [e t ht] at h; simp at h
    · intro t ht t' ht' r r' _ _ ne; exact absurd (e t ht) ne
    · intro t ht c hc; exact absurd ⟨t, ht, hc⟩ (no _)
  · refine ⟨rdL, fun a b h => rdL a b ((sym a b).mpr h), fun i h => absurd h (no i),
      fun a b h => .inl ((sym a b).mp h), fun a b h => .inl ((sym a b).mpr h),
      fun a b h => absurd h (no _), fun a b h => absurd h (no _), ?_, ?_, ?_, used, tagsU⟩
    · intro a b h; rw [ps] at h; cases h
    · intro t ht r a b _ h; rw [np t ht] at h; cases h
    · intro t ht c hc; exact absurd ⟨t, ht, hc⟩ (no _)

/-- When nobody has anything to do, links are symmetric. -/
theorem RcInv.sym {σ : RcStore} {T : List RcT} (h : RcInv σ T)
    (no : ∀ a b, ¬ hasI T (.add2 a b) ∧ ¬ hasI T (.cut2 a b)) : rcSym σ :=
  fun a b => ⟨fun x => (h.links.s1 a b x).resolve_right (no a b).1,
    fun x => (h.links.s2 a b x).resolve_right (no a b).2⟩

/-- The main thread is the only one without a request. -/
theorem main_only {T : List RcT} (main : ∃ m ths, T = ⟨none, m⟩ :: ths ∧ ∀ t ∈ ths, t.tag ≠ none)
    (e : T = A ++ ⟨none, i :: k⟩ :: B) : A = [] ∧ ∀ t ∈ B, t.tag ≠ none := by
  obtain ⟨m, ths, e', ng⟩ := main
  rw [e'] at e
  cases A with
  | nil =>
    simp only [List.nil_append, List.cons.injEq] at e
    exact ⟨rfl, by rw [← e.2]; exact ng⟩
  | cons a A =>
    simp only [List.cons_append, List.cons.injEq] at e
    exact absurd rfl (ng ⟨none, i :: k⟩ (by rw [e.2]; simp))

theorem RcInv.retire {σ : RcStore} {c} (h : RcInv σ (A ++ ⟨g, .retire c :: k⟩ :: B)) :
    RcInv (rcUpd σ c fun o => { o with live := false, pub := false })
      (A ++ ⟨g, [] ++ k⟩ :: B) := by
  obtain ⟨tg, em, X, eX, nX⟩ := h.shape.retire _ mem_cur c List.mem_cons_self
  have k0 : X = [] ∧ k = [] := by
    cases X with
    | nil => simp at eX; exact ⟨rfl, eX⟩
    | cons x X =>
      simp only [List.cons_append, List.cons.injEq] at eX
      exact absurd (by rw [eX.1]; exact List.mem_cons_self) (nX c)
  obtain ⟨rfl, rfl⟩ := k0
  dsimp only at tg
  subst tg
  obtain ⟨rfl, nB⟩ := main_only h.shape.main rfl
  have emp : ∀ t ∈ B, t.todo = [] := fun t ht => em t (by simp [ht]) (nB t ht)
  have dr := h.links.drains _ mem_cur c List.mem_cons_self
  simp only [List.mem_singleton, reduceCtorEq, false_or] at dr
  have no : ∀ a b, ¬ hasI ([] ++ ⟨none, [.retire c]⟩ :: B) (.add2 a b) ∧
      ¬ hasI ([] ++ ⟨none, [.retire c]⟩ :: B) (.cut2 a b) := by
    intro a b
    refine ⟨?_, ?_⟩ <;>
    · rintro ⟨t, ht, hj⟩
      simp only [List.nil_append, List.mem_cons] at ht
      rcases ht with rfl | ht
      · simp at hj
      · rw [emp t ht] at hj; cases hj
  have sy := h.sym no
  have er : ∀ x, (rcUpd σ c (fun o => { o with live := false, pub := false }) x).rd = (σ x).rd := by
    intro x; unfold rcUpd; split <;> rfl
  have ew : ∀ x, (rcUpd σ c (fun o => { o with live := false, pub := false }) x).wr = (σ x).wr := by
    intro x; unfold rcUpd; split <;> rfl
  have eu : ∀ x, (rcUpd σ c (fun o => { o with live := false, pub := false }) x).used = (σ x).used := by
    intro x; unfold rcUpd; split <;> rfl
  have kk : ∀ x, (rcUpd σ c (fun o => { o with live := false, pub := false }) x).kind = (σ x).kind := by
    intro x; unfold rcUpd; split <;> rfl
  have lv : ∀ x, x ≠ c → rcUpd σ c (fun o => { o with live := false, pub := false }) x = σ x :=
    fun x ne => upd_ne ne
  have us : ∀ x, ((rcUpd σ c (fun o => { o with live := false, pub := false }) x).live = true →
        (σ x).used = true) ∧
      ((rcUpd σ c (fun o => { o with live := false, pub := false }) x).pub = true →
        (rcUpd σ c (fun o => { o with live := false, pub := false }) x).live = true) := by
    intro x
    by_cases ne : x = c
    · subst ne; rw [upd_same]; exact ⟨(fun z => nomatch z), (fun z => nomatch z)⟩
    · rw [lv x ne]; exact h.links.used x
  generalize rcUpd σ c (fun o => { o with live := false, pub := false }) = σ' at *
  refine RcInv.ofEmpty ?_ ⟨[], B, rfl, nB⟩ ?_ ?_ ?_ ?_ ?_
  · intro t ht
    simp only [List.nil_append, List.mem_cons] at ht
    rcases ht with rfl | ht
    · rfl
    · exact emp t ht
  · intro t ht r er
    simp only [kk]
    simp only [List.nil_append, List.mem_cons] at ht
    rcases ht with rfl | ht
    · cases er
    · exact h.shape.tags t (by simp [ht]) r er
  · intro a b
    rw [er, ew]; exact sy a b
  · intro a b hb
    rw [er] at hb
    have nb : b ≠ c := by
      intro e; subst e
      have := (sy a _).mp hb
      rw [dr.1] at this; cases this
    have na : a ≠ c := by
      intro e; subst e
      rw [dr.2] at hb; cases hb
    rw [lv a na, lv b nb, fits_congr kk]
    exact h.links.rdL a b hb
  · intro a
    rw [eu]
    exact us a
  · intro t ht r er
    rw [eu]
    simp only [List.nil_append, List.mem_cons] at ht
    rcases ht with rfl | ht
    · cases er
    · exact h.links.tagsU t (by simp [ht]) r er

/-- Every step keeps the invariant. -/
theorem RcInv.step {σ σ' : RcStore} (h : RcInv σ (A ++ ⟨g, i :: k⟩ :: B))
    (a : AStep σ i σ' push) : RcInv σ' (A ++ ⟨g, push ++ k⟩ :: B) := by
  have L := h.links
  cases a with
  | quiet bi hp =>
    obtain ⟨_, _, _, _, _, b6, b7⟩ := benign_push hp σ
    refine h.same (RcPush.harmless hp) ?_ (fun j hj a b => ⟨(b6 j hj a b).1, (b6 j hj a b).2.1⟩)
      ?_ ?_ (fun a b z => absurd rfl (b6 _ z a b).2.2) ?_ ?_ ?_
    · intro j hj x hx
      rcases (hp j hj).2 x hx with e | ⟨y, hy, e | e⟩
      · exact L.refsL i has_head x e
      · exact (L.rdL y x e).2.1
      · exact (L.wrL x y e).1
    · intro a b; constructor <;> intro e <;> subst e <;> cases bi
    · intro c e; subst e; cases bi
    · rintro a (z | z)
      · exact absurd z (b7 a).1
      · exact absurd z (b7 a).2
    · intro c e; subst e; cases bi
    · intro c e; subst e; cases bi
  | @ask1 r dn o rest bs bs' hb =>
    have tp := h.shape.typ _ (has_head (A := A) (B := B))
    refine h.same (RcPush.nosteal ?_ ?_ ?_ ?_ ?_) ?_ ?_ ?_ ?_ ?_ ?_ ?_ ?_
    · intro j hj; rw [List.mem_singleton.mp hj]; exact tp
    · simp only [List.flatMap_cons, List.flatMap_nil, List.append_nil, RcI.pend]
      exact List.Sublist.refl _
    · intro j hj f; rw [List.mem_singleton.mp hj] at f; cases f
    · intro d hd; cases List.mem_singleton.mp hd
    · intro d hd; cases List.mem_singleton.mp hd
    · intro j hj x hx
      rw [List.mem_singleton.mp hj] at hx
      refine L.refsL _ has_head x ?_
      simp only [RcI.refs, List.mem_append, List.cons_append, List.mem_cons] at hx ⊢
      rcases hx with e | (e | e) | e
      · exact .inl e
      · exact .inr (.inl (.inl e))
      · exact .inr (.inl (.inr (.inr e)))
      · rcases hb x e with e | e
        · exact .inr (.inl (.inr (.inl e)))
        · exact .inr (.inr e)
    · intro j hj a b; rw [List.mem_singleton.mp hj]; exact ⟨(by intro e; cases e), (by intro e; cases e)⟩
    · intro a b; exact ⟨(by intro e; cases e), (by intro e; cases e)⟩
    · intro c e; cases e
    · intro a b z; cases List.mem_singleton.mp z
    · rintro a (z | z) <;> cases List.mem_singleton.mp z
    · intro c e; cases e
    · intro c e; cases e
  | @ask2 r dn =>
    obtain ⟨⟨c, os, er⟩, fp⟩ := h.shape.typ _ (has_head (A := A) (B := B))
    have mm : ∀ j, j ∈ rcPerform dn r → j = .born r.client ∨ j = .deref r.client ∨
        (∃ o n, o ∈ r.consoles ∧ j = .state o r.client n) ∨
        ∃ a b, j = .link a b false ∧ (a, b) ∈ r.pairs := by
      intro j hj
      rcases rcPerform_mem hj with e | e | e | ⟨a, b, f, e, pe, fe⟩
      · exact .inl e
      · exact .inr (.inl e)
      · exact .inr (.inr (.inl e))
      · cases f with
        | false => exact .inr (.inr (.inr ⟨a, b, e, pe⟩))
        | true => rw [er] at fe; cases fe rfl
    refine h.same (RcPush.nosteal ?_ ?_ ?_ ?_ ?_) ?_ ?_ ?_ ?_ ?_ ?_ ?_ ?_
    · intro j hj
      rcases mm j hj with rfl | rfl | ⟨o, n, _, rfl⟩ | ⟨a, b, rfl, pe⟩
      · trivial
      · trivial
      · trivial
      · exact fp (a, b) pe
    · rw [rcPerform_pend]; exact List.Sublist.refl _
    · intro j hj f
      rcases mm j hj with rfl | rfl | ⟨o, n, _, rfl⟩ | ⟨a, b, rfl, pe⟩ <;> cases f
    · intro d hd
      rcases mm _ hd with e | e | ⟨o, n, _, e⟩ | ⟨a, b, e, pe⟩ <;> cases e
    · intro d hd
      rcases mm _ hd with e | e | ⟨o, n, _, e⟩ | ⟨a, b, e, pe⟩ <;> cases e
    · have base : ∀ x, x = r.client ∨ x ∈ r.consoles → (σ x).live = true := by
        intro x hx
        refine L.refsL _ has_head x ?_
        simp only [RcI.refs, List.append_nil, List.mem_cons]
        exact hx
      intro j hj x hx
      rcases mm j hj with rfl | rfl | ⟨o, n, ho, rfl⟩ | ⟨a, b, rfl, pe⟩
      · exact base x (.inl (List.mem_singleton.mp hx))
      · exact base x (.inl (List.mem_singleton.mp hx))
      · simp only [RcI.refs, List.mem_cons, List.not_mem_nil, or_false] at hx
        rcases hx with rfl | rfl
        · exact base _ (.inr ho)
        · exact base _ (.inl rfl)
      · simp only [RcI.refs, List.mem_cons, List.not_mem_nil, or_false] at hx
        rcases pairs_mem pe with ⟨e1, e2⟩ | ⟨e1, e2⟩ <;> rcases hx with rfl | rfl
        · exact base _ (.inl e1)
        · exact base _ (.inr e2)
        · exact base _ (.inr e2)
        · exact base _ (.inl e1)
    · intro j hj a b
      rcases mm j hj with rfl | rfl | ⟨o, n, _, rfl⟩ | ⟨a, b, rfl, pe⟩ <;>
        exact ⟨(by intro e; cases e), (by intro e; cases e)⟩
    · intro a b; exact ⟨(by intro e; cases e), (by intro e; cases e)⟩
    · intro c e; cases e
    · intro a b z
      rcases mm _ z with e | e | ⟨o, n, _, e⟩ | ⟨a, b, e, pe⟩ <;> cases e
    · rintro a (z | z) <;>
        rcases mm _ z with e | e | ⟨o, n, _, e⟩ | ⟨a, b, e, pe⟩ <;> cases e
    · intro c e; cases e
    · intro c e; cases e
  | @ask3 r dn bs =>
    have q : Harmless (fun x => x ∈ bs) (bs.map fun o => RcI.tellBusy o 0) := by
      intro j hj
      obtain ⟨o, ho, rfl⟩ := List.mem_map.mp hj
      exact ⟨rfl, fun x hx => by rw [List.mem_singleton.mp hx]; exact ho⟩
    obtain ⟨_, _, _, _, _, b6, b7⟩ := benign_push q σ
    refine h.same (RcPush.harmless q) ?_ (fun j hj a b => ⟨(b6 j hj a b).1, (b6 j hj a b).2.1⟩)
      ?_ ?_ (fun a b z => absurd rfl (b6 _ z a b).2.2) ?_ ?_ ?_
    · intro j hj x hx
      refine L.refsL _ has_head x ?_
      simp only [RcI.refs, List.append_nil, List.cons_append, List.mem_cons, List.mem_append]
      exact .inr (.inr ((q j hj).2 x hx))
    · intro a b; exact ⟨(by intro e; cases e), (by intro e; cases e)⟩
    · intro c e; cases e
    · rintro a (z | z)
      · exact absurd z (b7 a).1
      · exact absurd z (b7 a).2
    · intro c e; cases e
    · intro c e; cases e
  | @link a b f q hq =>
    obtain ⟨b1, b2, b3, b4, b5, b6, b7⟩ := benign_push hq σ
    have tp := h.shape.typ _ (has_head (A := A) (B := B))
    refine h.same (RcPush.nosteal ?_ ?_ ?_ ?_ ?_) ?_ ?_ ?_ ?_ ?_ ?_ ?_ ?_
    · intro j hj
      rcases List.mem_append.mp hj with e | e
      · exact b1 j e
      · rw [List.mem_singleton.mp e]; exact tp
    · rw [List.flatMap_append, b2]; exact List.Sublist.refl _
    · intro j hj ff
      rcases List.mem_append.mp hj with e | e
      · rw [b3 j e] at ff; cases ff
      · rw [List.mem_singleton.mp e] at ff; cases ff
    · intro d hd
      rcases List.mem_append.mp hd with e | e
      · exact b4 d e
      · cases List.mem_singleton.mp e
    · intro d hd
      rcases List.mem_append.mp hd with e | e
      · exact b5 d e
      · cases List.mem_singleton.mp e
    · intro j hj x hx
      refine L.refsL _ has_head x ?_
      rcases List.mem_append.mp hj with e | e
      · rcases (hq j e).2 x hx with rfl | rfl <;> simp [RcI.refs]
      · rw [List.mem_singleton.mp e] at hx; exact hx
    · intro j hj x y
      rcases List.mem_append.mp hj with e | e
      · exact ⟨(b6 j e x y).1, (b6 j e x y).2.1⟩
      · rw [List.mem_singleton.mp e]; exact ⟨(by intro e; cases e), (by intro e; cases e)⟩
    · intro a b; exact ⟨(by intro e; cases e), (by intro e; cases e)⟩
    · intro c e; cases e
    · intro x y z
      rcases List.mem_append.mp z with e | e
      · exact absurd rfl (b6 _ e x y).2.2
      · cases List.mem_singleton.mp e
    · rintro x (z | z) <;> rcases List.mem_append.mp z with e | e
      · exact absurd e (b7 x).1
      · cases List.mem_singleton.mp e
      · exact absurd e (b7 x).2
      · cases List.mem_singleton.mp e
    · intro c e; cases e
    · intro c e; cases e
  | @linkF a b q ka kb hq =>
    obtain ⟨b1, b2, b3, b4, b5, b6, b7⟩ := benign_push hq σ
    have tp := h.shape.typ _ (has_head (A := A) (B := B))
    have mm : ∀ j, j ∈ q ++ [.stealW b 0] ++ [.add1 a b] → j ∈ q ∨ j = .stealW b 0 ∨ j = .add1 a b := by
      intro j hj
      simp only [List.append_assoc, List.singleton_append, List.mem_append, List.mem_cons,
        List.not_mem_nil, or_false] at hj
      exact hj
    refine h.same ⟨?_, ?_, ?_, ?_, ?_⟩ ?_ ?_ ?_ ?_ ?_ ?_ ?_ ?_
    · intro j hj
      rcases mm j hj with e | rfl | rfl
      · exact b1 j e
      · exact kb
      · exact tp
    · rw [List.flatMap_append, List.flatMap_append, b2]; exact List.Sublist.refl _
    · intro j hj ff; exact .inl rfl
    · intro X Y d e
      rw [List.append_assoc] at e
      have key : d = b ∧ Y = [.add1 a b] := by
        rcases List.append_eq_append_iff.mp e with ⟨z, e1, e2⟩ | ⟨z, e1, e2⟩
        · cases z with
          | nil => simp at e2; exact ⟨e2.1.symm, e2.2.symm⟩
          | cons z0 z =>
            simp only [List.singleton_append, List.cons_append, List.cons.injEq] at e2
            cases z with
            | nil => simp at e2
            | cons => simp at e2
        · cases z with
          | nil => simp at e2; exact ⟨e2.1, e2.2⟩
          | cons z0 z =>
            simp only [List.cons_append, List.cons.injEq] at e2
            obtain ⟨rfl, _⟩ := e2
            exact absurd (by rw [e1]; simp) (b4 d)
      obtain ⟨rfl, rfl⟩ := key
      exact ⟨a, by simp [RcI.pend], ka⟩
    · intro d hd
      rcases mm _ hd with e | e | e
      · exact b5 d e
      · cases e
      · cases e
    · intro j hj x hx
      refine L.refsL _ has_head x ?_
      rcases mm j hj with e | rfl | rfl
      · rcases (hq j e).2 x hx with rfl | rfl <;> simp [RcI.refs]
      · rw [List.mem_singleton.mp hx]; simp [RcI.refs]
      · exact hx
    · intro j hj x y
      rcases mm j hj with e | rfl | rfl
      · exact ⟨(b6 j e x y).1, (b6 j e x y).2.1⟩
      · exact ⟨(by intro e; cases e), (by intro e; cases e)⟩
      · exact ⟨(by intro e; cases e), (by intro e; cases e)⟩
    · intro a b; exact ⟨(by intro e; cases e), (by intro e; cases e)⟩
    · intro c e; cases e
    · intro x y z
      rcases mm _ z with e | e | e
      · exact absurd rfl (b6 _ e x y).2.2
      · cases e
      · cases e
    · rintro x (z | z) <;> rcases mm _ z with e | e | e
      · exact absurd e (b7 x).1
      · cases e
      · cases e
      · exact absurd e (b7 x).2
      · cases e
      · cases e
    · intro c e; cases e
    · intro c e; cases e
  | @steal d x hx =>
    obtain ⟨kx, np⟩ := steal_free h hx
    have tp := h.shape.typ _ (has_head (A := A) (B := B))
    have mm : ∀ j, j ∈ [RcI.drainW x, .drainR x, .stealW d 0] →
        j = .drainW x ∨ j = .drainR x ∨ j = .stealW d 0 := by
      intro j hj; simpa using hj
    have lx := (L.wrL x d hx).1
    refine h.same ⟨?_, ?_, ?_, ?_, ?_⟩ ?_ ?_ ?_ ?_ ?_ ?_ ?_ ?_
    · intro j hj
      rcases mm j hj with rfl | rfl | rfl
      · exact kx
      · exact kx
      · exact tp
    · exact List.Sublist.refl _
    · intro j hj ff; exact .inl rfl
    · intro X Y d' e
      have key : d' = d ∧ Y = [] := by
        match X, e with
        | [], e => simp at e
        | [_], e => simp at e
        | [_, _], e => simp at e; exact ⟨e.2.2.1.symm, e.2.2.2⟩
        | _ :: _ :: _ :: X, e => simp at e
      obtain ⟨rfl, rfl⟩ := key
      exact h.shape.steal _ mem_cur [] k d' rfl
    · intro c hc; rcases mm _ hc with e | e | e <;> cases e
    · intro j hj y hy
      rcases mm j hj with rfl | rfl | rfl
      · rw [List.mem_singleton.mp hy]; exact lx
      · rw [List.mem_singleton.mp hy]; exact lx
      · exact L.refsL _ has_head y hy
    · intro j hj a b
      rcases mm j hj with rfl | rfl | rfl <;> exact ⟨(by intro e; cases e), (by intro e; cases e)⟩
    · intro a b; exact ⟨(by intro e; cases e), (by intro e; cases e)⟩
    · intro c e; cases e
    · intro a b z; rcases mm _ z with e | e | e <;> cases e
    · rintro a (z | z) b _ <;> rcases mm _ z with e | e | e <;> cases e <;> exact np b
    · intro c e; cases e
    · intro c e; cases e
  | steal0 =>
    refine h.same RcPush.nil ?_ ?_ ?_ ?_ ?_ ?_ ?_ ?_
    · intro j hj; cases hj
    · intro j hj; cases hj
    · intro a b; exact ⟨(by intro e; cases e), (by intro e; cases e)⟩
    · intro c e; cases e
    · intro a b z; cases z
    · rintro a (z | z) <;> cases z
    · intro c e; cases e
    · intro c e; cases e
  | add1 => exact h.add1
  | add2 => exact h.add2
  | cut1 => exact h.cut1
  | cut2 q => exact h.cut2 q
  | @drainW x y hy =>
    have kx : (σ x).kind = .client := h.shape.typ _ (has_head (A := A) (B := B))
    have W := L.wrL y x hy
    have mm : ∀ j, j ∈ [RcI.cut1 y x, .drainW x] → j = .cut1 y x ∨ j = .drainW x := by
      intro j hj; simpa using hj
    refine h.same (RcPush.nosteal ?_ ?_ ?_ ?_ ?_) ?_ ?_ ?_ ?_ ?_ ?_ ?_ ?_
    · intro j hj
      rcases mm j hj with rfl | rfl
      · exact W.2.2
      · exact kx
    · exact List.Sublist.refl _
    · intro j hj ff; exact .inl rfl
    · intro d hd; rcases mm _ hd with e | e <;> cases e
    · intro d hd; rcases mm _ hd with e | e <;> cases e
    · intro j hj z hz
      rcases mm j hj with rfl | rfl
      · simp only [RcI.refs, List.mem_cons, List.not_mem_nil, or_false] at hz
        rcases hz with rfl | rfl
        · exact W.1
        · exact W.2.1
      · exact L.refsL _ has_head z hz
    · intro j hj a b
      rcases mm j hj with rfl | rfl <;> exact ⟨(by intro e; cases e), (by intro e; cases e)⟩
    · intro a b; exact ⟨(by intro e; cases e), (by intro e; cases e)⟩
    · intro c e; cases e
    · intro a b z pz
      rcases mm _ z with e | e
      · injection e with e1 e2
        subst e1 e2
        exact (L.pnd _ _ pz).1 hy
      · cases e
    · rintro a (z | z) b ka pz <;> rcases mm _ z with e | e
      · cases e
      · injection e with e
        subst e
        exact ((L.pnd _ _ pz).2.2.2.1 ka).1 has_head
      · cases e
      · cases e
    · intro c e; injection e with e; subst e; exact .inl (by simp)
    · intro c e; cases e
  | @drainW0 x hx =>
    refine h.same RcPush.nil ?_ ?_ ?_ ?_ ?_ ?_ ?_ ?_
    · intro j hj; cases hj
    · intro j hj; cases hj
    · intro a b; exact ⟨(by intro e; cases e), (by intro e; cases e)⟩
    · intro c e; cases e
    · intro a b z; cases z
    · rintro a (z | z) <;> cases z
    · intro c e; injection e with e; subst e; exact .inr hx
    · intro c e; cases e
  | @drainR x y hy =>
    have kx : (σ x).kind = .client := h.shape.typ _ (has_head (A := A) (B := B))
    have W := L.rdL x y hy
    have mm : ∀ j, j ∈ [RcI.cut1 x y, .drainR x] → j = .cut1 x y ∨ j = .drainR x := by
      intro j hj; simpa using hj
    refine h.same (RcPush.nosteal ?_ ?_ ?_ ?_ ?_) ?_ ?_ ?_ ?_ ?_ ?_ ?_ ?_
    · intro j hj
      rcases mm j hj with rfl | rfl
      · exact W.2.2
      · exact kx
    · exact List.Sublist.refl _
    · intro j hj ff; exact .inl rfl
    · intro d hd; rcases mm _ hd with e | e <;> cases e
    · intro d hd; rcases mm _ hd with e | e <;> cases e
    · intro j hj z hz
      rcases mm j hj with rfl | rfl
      · simp only [RcI.refs, List.mem_cons, List.not_mem_nil, or_false] at hz
        rcases hz with rfl | rfl
        · exact W.1
        · exact W.2.1
      · exact L.refsL _ has_head z hz
    · intro j hj a b
      rcases mm j hj with rfl | rfl <;> exact ⟨(by intro e; cases e), (by intro e; cases e)⟩
    · intro a b; exact ⟨(by intro e; cases e), (by intro e; cases e)⟩
    · intro c e; cases e
    · intro a b z pz
      rcases mm _ z with e | e
      · injection e with e1 e2
        subst e1 e2
        exact ((L.pnd _ _ pz).2.2.2.1 kx).2 has_head
      · cases e
    · rintro a (z | z) b ka pz <;> rcases mm _ z with e | e
      · cases e
      · cases e
      · cases e
      · injection e with e
        subst e
        exact ((L.pnd _ _ pz).2.2.2.1 ka).2 has_head
    · intro c e; cases e
    · intro c e; injection e with e; subst e; exact .inl (by simp)
  | @drainR0 x hx =>
    refine h.same RcPush.nil ?_ ?_ ?_ ?_ ?_ ?_ ?_ ?_
    · intro j hj; cases hj
    · intro j hj; cases hj
    · intro a b; exact ⟨(by intro e; cases e), (by intro e; cases e)⟩
    · intro c e; cases e
    · intro a b z; cases z
    · rintro a (z | z) <;> cases z
    · intro c e; cases e
    · intro c e; injection e with e; subst e; exact .inr hx
  | @born c lc =>
    have f1 : ∀ x, (rcUpd σ c (fun o => { o with pub := true }) x).kind = (σ x).kind := by
      intro x; unfold rcUpd; split <;> rfl
    have f2 : ∀ x, (rcUpd σ c (fun o => { o with pub := true }) x).rd = (σ x).rd := by
      intro x; unfold rcUpd; split <;> rfl
    have f3 : ∀ x, (rcUpd σ c (fun o => { o with pub := true }) x).wr = (σ x).wr := by
      intro x; unfold rcUpd; split <;> rfl
    have f4 : ∀ x, (rcUpd σ c (fun o => { o with pub := true }) x).live = (σ x).live := by
      intro x; unfold rcUpd; split <;> rfl
    have f5 : ∀ x, (rcUpd σ c (fun o => { o with pub := true }) x).used = (σ x).used := by
      intro x; unfold rcUpd; split <;> rfl
    refine ⟨h.shape.step f1 RcPush.nil (by intro c e; cases e),
      L.same f2 f3 f4 f1 f5 ?_ RcPush.nil ?_ ?_ ?_ ?_ ?_ ?_ ?_ ?_⟩
    · intro x hx
      by_cases e : x = c
      · subst e; exact lc
      · rw [upd_ne e] at hx; exact (L.used x).2 hx
    · intro j hj; cases hj
    · intro j hj; cases hj
    · intro a b; exact ⟨(by intro e; cases e), (by intro e; cases e)⟩
    · intro c e; cases e
    · intro a b z; cases z
    · rintro a (z | z) <;> cases z
    · intro c e; cases e
    · intro c e; cases e
  | retire => exact h.retire

end Step

end Conman
