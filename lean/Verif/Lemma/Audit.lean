import Verif.Model.Audit
import Verif.Lemma.WorldLink
import Verif.Lemma.WorldOwn

namespace Conman
open Spec

theorem lastOf_snoc (c : Nat) (L : List Audit) (a : Audit) : lastOf c (L ++ [a]) = if a.who = c then some a else lastOf c L := by
  unfold lastOf
  rw [List.reverse_append, List.reverse_singleton, List.singleton_append, List.find?_cons]
  by_cases h : a.who = c <;> simp [h]

theorem Regular.snoc {L : List Audit} (h : Regular L) (a : Audit) (ha : a.ends = true ↔ OnRecord a.who L) : Regular (L ++ [a]) := by
  intro l b r e
  rcases List.eq_nil_or_concat r with rfl | ⟨r', x, rfl⟩
  · obtain ⟨h1, h2⟩ := List.append_inj' e rfl
    simp only [List.cons.injEq, and_true] at h2
    subst h1 h2
    exact ha
  · rw [List.concat_eq_append, ← List.cons_append, ← List.append_assoc] at e
    obtain ⟨h1, _⟩ := List.append_inj' e rfl
    exact h l b r' h1

theorem Regular.nil : Regular [] := by
  intro l a r e
  cases l <;> cases e

/-- What is in a list without repetitions and also in another one. -/
theorem nodup_le : ∀ {l m : List Nat}, l.Nodup → (∀ x ∈ l, x ∈ m) → l.length ≤ m.length
  | [], _, _, _ => by simp
  | a :: l, m, hn, hs => by
    have ha := hs a (by simp)
    have h1 := nodup_le (l := l) (m := m.erase a) (List.nodup_cons.mp hn).2 (fun x hx => by
      have hne : x ≠ a := fun e => (List.nodup_cons.mp hn).1 (e ▸ hx)
      exact (List.mem_erase_of_ne hne).mpr (hs x (by simp [hx])))
    have := List.length_erase_of_mem ha
    have := List.length_pos_of_mem ha
    simp only [List.length_cons]
    omega

/-- Only polls delete objects. -/
theorem step_keeps {env : Env} {w w' : World} (h : DInv w) (s : Step) (hs : w.step env s = some w') (hp : ∀ i up rd wr, s ≠ .poll i up rd wr) {j : Nat} (hj : j ∈ w.live) :
    j ∈ w'.live := by
  cases s with
  | poll i up rd wr => exact absurd rfl (hp i up rd wr)
  | grant c k =>
    rcases (step_live h _ hs).2.1 j hj with g | ⟨g, _⟩
    · exact g
    · simp only [Step.target, Option.some.injEq] at g
      subst g
      simp only [World.step, Option.some.injEq] at hs
      subst hs
      split
      · rw [if_pos hj]; exact hj
      · exact hj
  | connUp i =>
    simp only [World.step, Option.some.injEq] at hs
    subst hs
    split
    · rw [(connUp_inv h.inv env i).2.live]; exact hj
    · exact hj
  | check q =>
    simp only [World.step, Option.some.injEq] at hs
    subst hs
    split <;> exact hj
  | connPend i =>
    simp only [World.step, Option.some.injEq] at hs
    subst hs
    split <;> exact hj
  | connDown i =>
    simp only [World.step, Option.some.injEq] at hs
    subst hs
    split <;> exact hj
  | connFail i =>
    rcases (step_live h _ hs).2.1 j hj with g | ⟨g, gk⟩
    · exact g
    · simp only [Step.target, Option.some.injEq] at g
      subst g
      simp only [World.step, Option.some.injEq] at hs
      rw [if_neg (by rw [gk]; simp)] at hs
      subst hs; exact hj
  | resetTimeout con =>
    simp only [World.step, Option.some.injEq] at hs
    subst hs
    split
    · split
      · exact hj
      · split <;> exact hj
    · exact hj
  | childExit con pid =>
    simp only [World.step, Option.some.injEq] at hs
    subst hs; exact hj
  | logOpen i ok =>
    simp only [World.step, Option.some.injEq] at hs
    subst hs
    split <;> exact hj
  | logStamp i =>
    rcases (step_live h _ hs).2.1 j hj with g | ⟨g, gk⟩
    · exact g
    · simp only [Step.target, Option.some.injEq] at g
      subst g
      simp only [World.step, Option.some.injEq] at hs
      rw [if_neg (by rw [gk]; simp)] at hs
      subst hs; exact hj

/-- The consoles a client may be linked to. -/
def CoverX (o : Obj) : Audit → Prop
  | .readOnly _ con | .readWrite _ con => (∀ x ∈ o.readers, x = con) ∧ ∀ x ∈ o.writers, x = con
  | .broadcast _ n => (∃ cons : List Nat, cons.length = n ∧ ∀ x ∈ o.readers, x ∈ cons) ∧ o.writers = []
  | .gone _ => False

theorem CoverX.mono {o o' : Obj} {a : Audit} (h : CoverX o a) (hr : ∀ x ∈ o'.readers, x ∈ o.readers ∨ o.writers = [x]) (hw : ∀ x ∈ o'.writers, x ∈ o.writers) : CoverX o' a := by
  have one : ∀ con, ((∀ x ∈ o.readers, x = con) ∧ ∀ x ∈ o.writers, x = con) → (∀ x ∈ o'.readers, x = con) ∧ ∀ x ∈ o'.writers, x = con := by
    intro con h
    refine ⟨fun x hx => ?_, fun x hx => h.2 x (hw x hx)⟩
    rcases hr x hx with g | g
    · exact h.1 x g
    · exact h.2 x (by rw [g]; simp)
  cases a with
  | readOnly c con => exact one con h
  | readWrite c con => exact one con h
  | broadcast c n =>
    obtain ⟨⟨cons, h1, h2⟩, h3⟩ := h
    refine ⟨⟨cons, h1, fun x hx => ?_⟩, ?_⟩
    · rcases hr x hx with g | g
      · exact h2 x g
      · rw [h3] at g; cases g
    · exact List.eq_nil_iff_forall_not_mem.mpr fun x hx => by
        have := hw x hx
        rw [h3] at this
        cases this
  | gone c => exact h

/-- The log tells what there is. -/
structure AInv (w : World) (L : List Audit) : Prop where
  d : DInv w
  on : ∀ c, (c ∈ w.live ∧ (w.obj c).kind = .client) ↔ OnRecord c L
  reg : Regular L
  cov : ∀ c a, c ∈ w.live → (w.obj c).kind = .client → lastOf c L = some a → CoverX (w.obj c) a

/-- A number that is taken is not given to a new client. -/
theorem step_taken {env : Env} {w w' : World} {c k : Nat} (hs : w.step env (.grant c k) = some w') (hl : c ∈ w.live) : w' = w := by
  simp only [World.step, Option.some.injEq] at hs
  subst hs
  split
  · rw [if_pos hl]
  · rfl

/-- The links of a client that was there before. -/
theorem cover_step {env : Env} {w w' : World} (h : DInv w) (s : Step) (hs : w.step env s = some w') {c : Nat} {a : Audit} (hl : c ∈ w.live) (hk : (w.obj c).kind = .client)
    (hc : CoverX (w.obj c) a) : CoverX (w'.obj c) a := by
  by_cases ht : ∃ c' k, s = .grant c' k ∧ c' ∈ w.live
  · obtain ⟨c', k, rfl, hcl⟩ := ht
    rw [step_taken hs hcl]
    exact hc
  have hn : ∀ c' k, s = .grant c' k → c' ∉ w.live := fun c' k e hcl => ht ⟨c', k, e, hcl⟩
  have h' := world_step_inv h env s hs
  obtain ⟨_, hg⟩ := step_links h s hs
  refine hc.mono (fun x hx => ?_) (fun x hx => ?_)
  · rcases hg c x hx with g | g | g
    · exact .inl g
    · obtain ⟨c', k, q, rfl, hq, g⟩ := g
      exfalso
      have hok := (h.wait q (List.mem_of_getElem? hq)).2
      rcases g with ⟨rfl, _, _⟩ | ⟨rfl, hm⟩
      · exact hn _ _ rfl hl
      · exact not_client_of_console (hok.2 c hm).2 hk
    · obtain ⟨up, d, wr, rfl, _, g, _⟩ := g
      exact .inr g
  · have hx' := (h'.inv.l.sym x c).mpr hx
    rcases hg x c hx' with g | g | g
    · exact (h.inv.l.sym x c).mp g
    · obtain ⟨c', k, q, rfl, hq, g⟩ := g
      exfalso
      have hok := (h.wait q (List.mem_of_getElem? hq)).2
      rcases g with ⟨rfl, hm, _⟩ | ⟨rfl, _⟩
      · exact not_client_of_console (hok.2 c hm).2 hk
      · exact hn _ _ rfl hl
    · obtain ⟨up, d, wr, rfl, hkx, g, _⟩ := g
      exfalso
      have := (h.inv.l.sym c x).mpr (by rw [g]; simp)
      rcases h.inv.l.kinds _ _ this with ⟨_, hcon⟩ | ⟨hcon, _⟩
      · exact not_client_of_console hcon hkx
      · exact not_client_of_console hcon hk

/-- What is told of a new client. -/
theorem auditGrant_one {c : Nat} {q : Req} (h : ReqShape q) : ∃ a, auditGrant c q = [a] ∧ a.who = c ∧ a.ends = false ∧
    ((∃ con, q.consoles = [con] ∧ ((q.cmd = .monitor ∧ a = .readOnly c con) ∨ (q.cmd = .connect ∧ a = .readWrite c con))) ∨
    (q.bcast = true ∧ q.cmd = .connect ∧ a = .broadcast c q.consoles.length)) := by
  unfold auditGrant
  match hc : q.cmd, hq : q.consoles with
  | .monitor, [] => exact absurd hq h.ne
  | .connect, [] => exact absurd hq h.ne
  | .monitor, [con] => exact ⟨_, rfl, rfl, rfl, .inl ⟨con, rfl, .inl ⟨rfl, rfl⟩⟩⟩
  | .connect, [con] => exact ⟨_, rfl, rfl, rfl, .inl ⟨con, rfl, .inr ⟨rfl, rfl⟩⟩⟩
  | .monitor, a :: b :: l =>
    have := (h.many (by rw [hq]; simp)).2
    rw [hc] at this; cases this
  | .connect, a :: b :: l => exact ⟨_, rfl, rfl, rfl, .inr ⟨(h.many (by rw [hq]; simp)).1, rfl, rfl⟩⟩

theorem OnRecord.snoc {c : Nat} {L : List Audit} {a : Audit} : OnRecord c (L ++ [a]) ↔ if a.who = c then a.ends = false else OnRecord c L := by
  unfold OnRecord
  rw [lastOf_snoc]
  by_cases h : a.who = c
  · rw [if_pos h, if_pos h]
    exact ⟨fun ⟨b, e, hb⟩ => by cases e; exact hb, fun hb => ⟨a, rfl, hb⟩⟩
  · rw [if_neg h, if_neg h]

end Conman
