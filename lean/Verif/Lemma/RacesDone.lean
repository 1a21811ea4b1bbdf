import Verif.Lemma.RacesSys

namespace Conman

open Spec

/-! ### Sessions that stay as they were set up -/

/-- No request is forced; sessions are complete, or being set up or closed, or
    were refused. -/
structure RcDone (σ : RcStore) (T : List RcT) : Prop where
  unf : ∀ t ∈ T, ∀ r, t.tag = some r → r.forced = false
  uniq : (T.map RcT.tag).Pairwise fun g g' => ∀ r r', g = some r → g' = some r' →
    r.client ≠ r'.client
  born : ∀ t ∈ T, ∀ x, .born x ∈ t.todo → ∃ r, t.tag = some r ∧ x = r.client
  ask : ∀ t ∈ T, ∀ r dn l bs, .ask r dn l bs ∈ t.todo →
    t.tag = some r ∧ t.todo = [.ask r dn l bs] ∧ (σ r.client).pub = false
  cl : ∀ t ∈ T, ∀ c, .retire c ∈ t.todo →
    (∀ a b, .cut1 a b ∈ t.todo ∨ .cut2 a b ∈ t.todo → a = c ∨ b = c) ∧
    ∀ x, .drainW x ∈ t.todo ∨ .drainR x ∈ t.todo → x = c
  done : ∀ t ∈ T, ∀ r, t.tag = some r →
    (∀ a b, (a, b) ∈ r.pairs → (a, b) ∈ t.pend ∨ rcLinked σ a b) ∨
    ((σ r.client).pub = false ∧ .born r.client ∉ t.todo ∧
      ∀ q dn l bs, .ask q dn l bs ∉ t.todo) ∨
    hasI T (.retire r.client) ∨ (σ r.client).live = false

section Facts
variable {σ σ' : RcStore} {i : RcI} {push : List RcI}

theorem AStep.pubs (h : AStep σ i σ' push) (x : Nat) (p : (σ' x).pub = true) :
    (σ x).pub = true ∨ i = .born x := by
  cases h <;> first
    | exact .inl p
    | skip
  all_goals
    unfold rcUpd at p
    split at p
    · first
        | exact .inl p
        | (rename_i e; subst e; exact .inr rfl)
        | cases p
    · exact .inl p

theorem AStep.dead (h : AStep σ i σ' push) (x : Nat) (p : (σ x).live = false) :
    (σ' x).live = false := by
  cases h <;> first
    | exact p
    | skip
  all_goals
    unfold rcUpd
    split
    · first
        | exact p
        | rfl
    · exact p

theorem AStep.linked (h : AStep σ i σ' push) {a b : Nat} (p : rcLinked σ a b) :
    rcLinked σ' a b ∨ i = .cut1 a b ∨ i = .cut2 a b := by
  obtain ⟨p1, p2⟩ := p
  cases h with
  | add1 =>
    left
    refine ⟨?_, ?_⟩ <;> unfold rcUpd <;> split <;>
      first | exact p1 | exact p2 | exact List.mem_append_left _ p1
  | add2 =>
    left
    refine ⟨?_, ?_⟩ <;> unfold rcUpd <;> split <;>
      first | exact p1 | exact p2 | exact List.mem_append_left _ p2
  | @cut1 a' b' =>
    by_cases e : a = a' ∧ b = b'
    · rw [e.1, e.2]; exact .inr (.inl rfl)
    · left
      refine ⟨?_, ?_⟩ <;> unfold rcUpd <;> split
      · rename_i ea
        subst ea
        refine List.mem_filter.mpr ⟨p1, ?_⟩
        exact decide_eq_true fun eb => e ⟨rfl, eb⟩
      · exact p1
      · exact p2
      · exact p2
  | @cut2 a' b' =>
    by_cases e : a = a' ∧ b = b'
    · rw [e.1, e.2]; exact .inr (.inr rfl)
    · left
      refine ⟨?_, ?_⟩ <;> unfold rcUpd <;> split
      · exact p1
      · exact p1
      · rename_i eb
        subst eb
        refine List.mem_filter.mpr ⟨p2, ?_⟩
        exact decide_eq_true fun ea => e ⟨ea, rfl⟩
      · exact p2
  | born =>
    left
    refine ⟨?_, ?_⟩ <;> unfold rcUpd <;> split <;> first | exact p1 | exact p2
  | retire =>
    left
    refine ⟨?_, ?_⟩ <;> unfold rcUpd <;> split <;> first | exact p1 | exact p2
  | _ => exact .inl ⟨p1, p2⟩

/-- Connections to be made stay so, until they are made or refused. -/
theorem AStep.pending (h : AStep σ i σ' push) (a2 : ∀ a b, i = .add2 a b → b ∈ (σ a).rd)
    (fits : ∀ a b, i = .add2 a b → a ≠ b)
    {a b : Nat} (p : (a, b) ∈ i.pend) :
    (a, b) ∈ push.flatMap RcI.pend ∨ (∃ r dn bs, i = .ask r dn [] bs ∧ push = bs.map fun o => .tellBusy o 0) ∨
    rcLinked σ' a b := by
  cases h with
  | quiet bi _ => cases i <;> first | (cases bi; done) | (cases p; done)
  | ask1 => left; simpa [RcI.pend] using p
  | ask2 => left; rw [rcPerform_pend]; exact p
  | ask3 => exact .inr (.inl ⟨_, _, _, rfl, rfl⟩)
  | link =>
    left; rw [List.flatMap_append]
    exact List.mem_append_right _ (by simpa [RcI.pend] using p)
  | linkF =>
    left; rw [List.flatMap_append]
    exact List.mem_append_right _ (by simpa [RcI.pend] using p)
  | add1 => left; simpa [RcI.pend] using p
  | @add2 a' b' =>
    right; right
    have e := List.mem_singleton.mp p
    injection e with e1 e2
    subst e1 e2
    have := a2 _ _ rfl
    have ne := fits _ _ rfl
    refine ⟨?_, ?_⟩
    · rw [upd_ne ne]; exact this
    · rw [upd_same]; simp
  | _ => cases p

theorem AStep.pushes (h : AStep σ i σ' push) {j : RcI} (hj : j ∈ push) :
    (∀ x, j = .born x → ∃ r dn, i = .ask r dn [] [] ∧ x = r.client) ∧
    (∀ r dn l bs, j = .ask r dn l bs → ∃ l' bs', i = .ask r dn l' bs' ∧ push = [j]) ∧
    (∀ c, j ≠ .retire c) ∧
    (∀ a b, j = .cut1 a b ∨ j = .cut2 a b →
      (∃ x, (i = .drainW x ∨ i = .drainR x) ∧ (a = x ∨ b = x)) ∨ i = .cut1 a b) ∧
    ∀ x, j = .drainW x ∨ j = .drainR x →
      (i = .drainW x ∨ i = .drainR x) ∨ ∃ d, i = .stealW d 0 := by
  have no : j.benign = true ∨ (∃ a b, j = .add1 a b ∨ j = .add2 a b) ∨ (∃ d, j = .stealW d 0) ∨
      (∃ a b f, j = .link a b f) →
    (∀ x, j = .born x → ∃ r dn, i = .ask r dn [] [] ∧ x = r.client) ∧
    (∀ r dn l bs, j = .ask r dn l bs → ∃ l' bs', i = .ask r dn l' bs' ∧ push = [j]) ∧
    (∀ c, j ≠ .retire c) ∧
    (∀ a b, j = .cut1 a b ∨ j = .cut2 a b →
      (∃ x, (i = .drainW x ∨ i = .drainR x) ∧ (a = x ∨ b = x)) ∨ i = .cut1 a b) ∧
    ∀ x, j = .drainW x ∨ j = .drainR x →
      (i = .drainW x ∨ i = .drainR x) ∨ ∃ d, i = .stealW d 0 := by
    intro z
    refine ⟨?_, ?_, ?_, ?_, ?_⟩
    · rintro x rfl
      rcases z with z | ⟨a, b, z | z⟩ | ⟨d, z⟩ | ⟨a, b, f, z⟩ <;> cases z
    · rintro r dn l bs rfl
      rcases z with z | ⟨a, b, z | z⟩ | ⟨d, z⟩ | ⟨a, b, f, z⟩ <;> cases z
    · rintro c rfl
      rcases z with z | ⟨a, b, z | z⟩ | ⟨d, z⟩ | ⟨a, b, f, z⟩ <;> cases z
    · rintro x y (rfl | rfl) <;>
        rcases z with z | ⟨a, b, z | z⟩ | ⟨d, z⟩ | ⟨a, b, f, z⟩ <;> cases z
    · rintro x (rfl | rfl) <;>
        rcases z with z | ⟨a, b, z | z⟩ | ⟨d, z⟩ | ⟨a, b, f, z⟩ <;> cases z
  cases h with
  | quiet bi hp => exact no (.inl (hp j hj).1)
  | ask1 =>
    rw [List.mem_singleton] at hj; subst hj
    refine ⟨?_, ?_, ?_, ?_, ?_⟩
    · intro x e; cases e
    · intro r dn l bs e; cases e; exact ⟨_, _, rfl, rfl⟩
    · intro c e; cases e
    · rintro a b (e | e) <;> cases e
    · rintro x (e | e) <;> cases e
  | @ask2 r dn =>
    rcases rcPerform_mem hj with rfl | rfl | ⟨o, n, _, rfl⟩ | ⟨a, b, f, rfl, _⟩
    · refine ⟨?_, ?_, ?_, ?_, ?_⟩
      · intro x e; cases e; exact ⟨_, _, rfl, rfl⟩
      · intro r dn l bs e; cases e
      · intro c e; cases e
      · rintro a b (e | e) <;> cases e
      · rintro x (e | e) <;> cases e
    · exact no (.inl rfl)
    · exact no (.inl rfl)
    · exact no (.inr (.inr (.inr ⟨_, _, _, rfl⟩)))
  | ask3 =>
    obtain ⟨o, _, rfl⟩ := List.mem_map.mp hj
    exact no (.inl rfl)
  | link hq =>
    rcases List.mem_append.mp hj with e | e
    · exact no (.inl (hq j e).1)
    · exact no (.inr (.inl ⟨_, _, .inl (List.mem_singleton.mp e)⟩))
  | linkF _ _ hq =>
    rcases List.mem_append.mp hj with e | e
    · rcases List.mem_append.mp e with e | e
      · exact no (.inl (hq j e).1)
      · exact no (.inr (.inr (.inl ⟨_, List.mem_singleton.mp e⟩)))
    · exact no (.inr (.inl ⟨_, _, .inl (List.mem_singleton.mp e)⟩))
  | steal =>
    simp only [List.mem_cons, List.not_mem_nil, or_false] at hj
    rcases hj with rfl | rfl | rfl
    · refine ⟨(by intro x e; cases e), (by intro r dn l bs e; cases e), (by intro c e; cases e),
        (by rintro a b (e | e) <;> cases e), fun x _ => .inr ⟨_, rfl⟩⟩
    · refine ⟨(by intro x e; cases e), (by intro r dn l bs e; cases e), (by intro c e; cases e),
        (by rintro a b (e | e) <;> cases e), fun x _ => .inr ⟨_, rfl⟩⟩
    · exact no (.inr (.inr (.inl ⟨_, rfl⟩)))
  | steal0 => cases hj
  | add1 => exact no (.inr (.inl ⟨_, _, .inr (List.mem_singleton.mp hj)⟩))
  | add2 => cases hj
  | cut1 =>
    rw [List.mem_singleton] at hj; subst hj
    refine ⟨(by intro x e; cases e), (by intro r dn l bs e; cases e), (by intro c e; cases e), ?_,
      (by rintro x (e | e) <;> cases e)⟩
    rintro a b (e | e) <;> cases e
    exact .inr rfl
  | cut2 hq => exact no (.inl (hq j hj).1)
  | drainW =>
    simp only [List.mem_cons, List.not_mem_nil, or_false] at hj
    rcases hj with rfl | rfl
    · refine ⟨(by intro x e; cases e), (by intro r dn l bs e; cases e), (by intro c e; cases e), ?_,
        (by rintro x (e | e) <;> cases e)⟩
      rintro a b (e | e) <;> cases e
      exact .inl ⟨_, .inl rfl, .inr rfl⟩
    · refine ⟨(by intro x e; cases e), (by intro r dn l bs e; cases e), (by intro c e; cases e),
        (by rintro a b (e | e) <;> cases e), ?_⟩
      rintro x (e | e) <;> cases e
      exact .inl (.inl rfl)
  | drainW0 => cases hj
  | drainR =>
    simp only [List.mem_cons, List.not_mem_nil, or_false] at hj
    rcases hj with rfl | rfl
    · refine ⟨(by intro x e; cases e), (by intro r dn l bs e; cases e), (by intro c e; cases e), ?_,
        (by rintro x (e | e) <;> cases e)⟩
      rintro a b (e | e) <;> cases e
      exact .inl ⟨_, .inr rfl, .inl rfl⟩
    · refine ⟨(by intro x e; cases e), (by intro r dn l bs e; cases e), (by intro c e; cases e),
        (by rintro a b (e | e) <;> cases e), ?_⟩
      rintro x (e | e) <;> cases e
      exact .inl (.inr rfl)
  | drainR0 => cases hj
  | born => cases hj
  | retire => cases hj

end Facts

section Step
variable {A B : List RcT} {g : Option RcReq} {i : RcI} {k push : List RcI}

/-- Nobody is thrown out. -/
theorem RcDone.noSteal {σ : RcStore} {T : List RcT} (h : RcInv σ T) (d : RcDone σ T) {x} :
    ¬ hasI T (.stealW x 0) := by
  rintro ⟨t, ht, hj⟩
  have own : ∃ r, t.tag = some r := by
    obtain ⟨X, Y, e⟩ := List.append_of_mem hj
    obtain ⟨c, hc, _⟩ := h.shape.steal t ht X Y x e
    have : (c, x) ∈ t.pend := by
      rw [RcT.pend, e, List.flatMap_append, List.flatMap_cons]
      exact List.mem_append_right _ (List.mem_append_right _ hc)
    obtain ⟨r, er, _⟩ := h.shape.own t ht _ this
    exact ⟨r, er⟩
  obtain ⟨r, er⟩ := own
  rcases h.shape.force t ht _ hj rfl with ⟨r', er', f⟩ | ⟨c, hc⟩
  · rw [d.unf t ht r' er'] at f; cases f
  · rw [(h.shape.retire t ht c hc).1] at er; cases er

/-- Whoever cuts a connection closes a client. -/
theorem RcDone.cutter {σ : RcStore} {T : List RcT} (h : RcInv σ T) (d : RcDone σ T) {t : RcT}
    (ht : t ∈ T) {j} (hj : j ∈ t.todo) (f : j.forceful = true) : ∃ c, .retire c ∈ t.todo := by
  rcases h.shape.force t ht _ hj f with ⟨r', er', f⟩ | hc
  · rw [d.unf t ht r' er'] at f; cases f
  · exact hc

theorem RcDone.step {σ σ' : RcStore} (h : RcInv σ (A ++ ⟨g, i :: k⟩ :: B))
    (d : RcDone σ (A ++ ⟨g, i :: k⟩ :: B)) (a : AStep σ i σ' push) :
    RcDone σ' (A ++ ⟨g, push ++ k⟩ :: B) := by
  have S := h.shape
  have L := h.links
  have cur : (⟨g, i :: k⟩ : RcT) ∈ A ++ ⟨g, i :: k⟩ :: B := mem_cur
  have split : ∀ {t}, t ∈ A ++ ⟨g, push ++ k⟩ :: B → (t ∈ A ∨ t ∈ B) ∨ t = ⟨g, push ++ k⟩ := by
    intro t ht
    simp only [List.mem_append, List.mem_cons] at ht
    rcases ht with z | z | z
    · exact .inl (.inl z)
    · exact .inr z
    · exact .inl (.inr z)
  have old : ∀ {t}, t ∈ A ∨ t ∈ B → t ∈ A ++ ⟨g, i :: k⟩ :: B := by
    intro t ht
    simp only [List.mem_append, List.mem_cons]
    rcases ht with z | z
    · exact .inl z
    · exact .inr (.inr z)
  -- only the own thread makes a client known
  have other : ∀ t, t ∈ A ∨ t ∈ B → ∀ r, t.tag = some r → i ≠ .born r.client := by
    intro t ht r er e
    obtain ⟨r', eg, ex⟩ := d.born _ cur r.client (by rw [e]; exact List.mem_cons_self)
    dsimp only at eg
    have U := d.uniq
    rw [List.map_append, List.map_cons, List.pairwise_append, List.pairwise_cons] at U
    rcases ht with ht | ht
    · exact U.2.2 t.tag (List.mem_map_of_mem ht) g List.mem_cons_self r r' er eg ex
    · exact U.2.1.1 t.tag (List.mem_map_of_mem ht) r' r eg er ex.symm
  have pubO : ∀ t, t ∈ A ∨ t ∈ B → ∀ r, t.tag = some r → (σ r.client).pub = false →
      (σ' r.client).pub = false := by
    intro t ht r er p
    cases e : (σ' r.client).pub with
    | false => rfl
    | true =>
      rcases a.pubs _ e with z | z
      · rw [p] at z; cases z
      · exact absurd z (other t ht r er)
  -- connections are cut only when a client is closed
  have keep : ∀ t ∈ A ++ ⟨g, i :: k⟩ :: B, ∀ r, t.tag = some r → ∀ a b, (a, b) ∈ r.pairs →
      rcLinked σ a b →
      rcLinked σ' a b ∨ hasI (A ++ ⟨g, push ++ k⟩ :: B) (.retire r.client) := by
    intro t ht r er x y pr lk
    rcases a.linked lk with z | z
    · exact .inl z
    · right
      have ff : i.forceful = true := by rcases z with z | z <;> rw [z] <;> rfl
      obtain ⟨c, hc⟩ := d.cutter h cur (List.mem_cons_self (l := k)) ff
      have hck : .retire c ∈ k := by
        rcases List.mem_cons.mp hc with e | e
        · rw [← e] at ff; cases ff
        · exact e
      have xy := (d.cl _ cur c hc).1 x y (by
        rcases z with z | z
        · exact .inl (by rw [z]; exact List.mem_cons_self)
        · exact .inr (by rw [z]; exact List.mem_cons_self))
      have kc : (σ c).kind = .client := S.typ _ ⟨_, cur, hc⟩
      have ct := (S.tags t ht r er).2
      have : c = r.client := by
        rcases pairs_mem pr with ⟨e1, e2⟩ | ⟨e1, e2⟩ <;> rcases xy with e | e
        · rw [← e]; exact e1
        · rw [← e, ct _ e2] at kc; cases kc
        · rw [← e, ct _ e2] at kc; cases kc
        · rw [← e]; exact e1
      rw [← this]
      exact ⟨⟨g, push ++ k⟩, by simp, List.mem_append_right _ hck⟩
  refine ⟨?_, ?_, ?_, ?_, ?_, ?_⟩
  · intro t ht r er
    rcases split ht with z | rfl
    · exact d.unf t (old z) r er
    · exact d.unf _ cur r er
  · have U := d.uniq
    rw [List.map_append, List.map_cons] at U ⊢
    exact U
  · intro t ht x hx
    rcases split ht with z | rfl
    · exact d.born t (old z) x hx
    · rcases List.mem_append.mp hx with z | z
      · obtain ⟨r, dn, e, ex⟩ := (a.pushes z).1 x rfl
        exact ⟨r, (d.ask _ cur r dn [] [] (by rw [e]; exact List.mem_cons_self)).1, ex⟩
      · exact d.born _ cur x (List.mem_cons_of_mem _ z)
  · intro t ht r dn l bs hx
    rcases split ht with z | rfl
    · obtain ⟨e1, e2, e3⟩ := d.ask t (old z) r dn l bs hx
      exact ⟨e1, e2, pubO t z r e1 e3⟩
    · rcases List.mem_append.mp hx with z | z
      · obtain ⟨l', bs', e, ep⟩ := (a.pushes z).2.1 r dn l bs rfl
        obtain ⟨e1, e2, e3⟩ := d.ask _ cur r dn l' bs' (by rw [e]; exact List.mem_cons_self)
        have k0 : k = [] := by
          dsimp only at e2
          rw [e] at e2
          injection e2
        refine ⟨e1, by rw [ep, k0]; rfl, ?_⟩
        cases e' : (σ' r.client).pub with
        | false => rfl
        | true =>
          rcases a.pubs _ e' with w | w
          · rw [e3] at w; cases w
          · rw [e] at w; cases w
      · obtain ⟨e1, e2, e3⟩ := d.ask _ cur r dn l bs (List.mem_cons_of_mem _ z)
        dsimp only at e2
        injection e2 with _ e2
        rw [e2] at z; cases z
  · intro t ht c hc
    rcases split ht with z | rfl
    · exact d.cl t (old z) c hc
    · rcases List.mem_append.mp hc with z | z
      · exact absurd rfl ((a.pushes z).2.2.1 c)
      · obtain ⟨c1, c2⟩ := d.cl _ cur c (List.mem_cons_of_mem _ z)
        have hd : i ∈ (⟨g, i :: k⟩ : RcT).todo := List.mem_cons_self
        have cutp : ∀ j x y, (j = .cut1 x y ∨ j = .cut2 x y) → j ∈ push → x = c ∨ y = c := by
          intro j x y ej w
          rcases (a.pushes w).2.2.2.1 x y ej with ⟨v, ev | ev, exy⟩ | ev
          · have := c2 v (.inl (ev ▸ hd)); rw [← this]; exact exy
          · have := c2 v (.inr (ev ▸ hd)); rw [← this]; exact exy
          · exact c1 x y (.inl (ev ▸ hd))
        have drp : ∀ j x, (j = .drainW x ∨ j = .drainR x) → j ∈ push → x = c := by
          intro j x ej w
          rcases (a.pushes w).2.2.2.2 x ej with (ev | ev) | ⟨v, ev⟩
          · exact c2 x (.inl (ev ▸ hd))
          · exact c2 x (.inr (ev ▸ hd))
          · exact absurd ⟨_, cur, by rw [← ev]; exact hd⟩ (d.noSteal h (x := v))
        refine ⟨?_, ?_⟩
        · rintro x y (w | w) <;> rcases List.mem_append.mp w with w | w
          · exact cutp _ x y (.inl rfl) w
          · exact c1 x y (.inl (List.mem_cons_of_mem _ w))
          · exact cutp _ x y (.inr rfl) w
          · exact c1 x y (.inr (List.mem_cons_of_mem _ w))
        · rintro x (w | w) <;> rcases List.mem_append.mp w with w | w
          · exact drp _ x (.inl rfl) w
          · exact c2 x (.inl (List.mem_cons_of_mem _ w))
          · exact drp _ x (.inr rfl) w
          · exact c2 x (.inr (List.mem_cons_of_mem _ w))
  · intro t ht r er
    have ret : hasI (A ++ ⟨g, i :: k⟩ :: B) (.retire r.client) ∨ (σ r.client).live = false →
        hasI (A ++ ⟨g, push ++ k⟩ :: B) (.retire r.client) ∨ (σ' r.client).live = false := by
      rintro (w | w)
      · rcases has_old (push := push) w with w | w
        · exact .inl w
        · right
          rw [← w] at a
          generalize ej : RcI.retire r.client = j at a
          cases a <;> first
            | (rename_i bi _; rw [← ej] at bi; cases bi; done)
            | (cases ej; done)
            | skip
          cases ej
          rw [upd_same]
      · exact .inr (a.dead _ w)
    by_cases hr : hasI (A ++ ⟨g, push ++ k⟩ :: B) (.retire r.client)
    · exact .inr (.inr (.inl hr))
    rcases split ht with z | rfl
    · rcases d.done t (old z) r er with w | ⟨w1, w2, w3⟩ | w
      · left
        intro x y pr
        rcases w x y pr with v | v
        · exact .inl v
        · exact .inr ((keep t (old z) r er x y pr v).resolve_right hr)
      · exact .inr (.inl ⟨pubO t z r er w1, w2, w3⟩)
      · exact .inr (.inr (ret w))
    · dsimp only at er
      by_cases rej : ∃ r dn bs, i = .ask r dn [] bs ∧ push = bs.map fun o => .tellBusy o 0
      · obtain ⟨r', dn, bs, ei, ep⟩ := rej
        obtain ⟨e1, e2, e3⟩ := d.ask _ cur r' dn [] bs (by rw [ei]; exact List.mem_cons_self)
        dsimp only at e1
        rw [er] at e1
        cases e1
        have k0 : k = [] := by
          dsimp only at e2
          rw [ei] at e2
          injection e2
        refine .inr (.inl ⟨?_, ?_, ?_⟩)
        · cases e' : (σ' r.client).pub with
          | false => rfl
          | true =>
            rcases a.pubs _ e' with w | w
            · rw [e3] at w; cases w
            · rw [ei] at w; cases w
        · rw [ep, k0]; simp
        · intro q dn l bs; rw [ep, k0]; simp
      · have fit : ∀ a b, i = .add2 a b → a ≠ b := by
          intro a b e eab
          have := S.typ _ (has_head (A := A) (B := B) (g := g) (k := k) (i := i))
          rw [e, eab] at this
          rcases this with ⟨y1, y2⟩ | ⟨y1, y2⟩ | ⟨y1, y2⟩ <;> rw [y1] at y2 <;> cases y2
        rcases d.done _ cur r er with w | ⟨w1, w2, w3⟩ | w
        · left
          intro x y pr
          rcases w x y pr with v | v
          · rw [RcT.pend, List.flatMap_cons] at v
            rw [RcT.pend, List.flatMap_append]
            rcases List.mem_append.mp v with v | v
            · rcases a.pending (fun a b e => L.a2 a b (e ▸ has_head)) fit v with v | v | v
              · exact .inl (List.mem_append_left _ v)
              · exact absurd v rej
              · exact .inr v
            · exact .inl (List.mem_append_right _ v)
          · exact .inr ((keep _ cur r er x y pr v).resolve_right hr)
        · refine .inr (.inl ⟨?_, ?_, ?_⟩)
          · cases e' : (σ' r.client).pub with
            | false => rfl
            | true =>
              rcases a.pubs _ e' with w | w
              · rw [w1] at w; cases w
              · exact absurd (by rw [w]; exact List.mem_cons_self) w2
          · intro v
            rcases List.mem_append.mp v with v | v
            · obtain ⟨r', dn, e, _⟩ := (a.pushes v).1 _ rfl
              exact w3 r' dn [] [] (by rw [e]; exact List.mem_cons_self)
            · exact w2 (List.mem_cons_of_mem _ v)
          · intro q dn l bs v
            rcases List.mem_append.mp v with v | v
            · obtain ⟨l', bs', e, _⟩ := (a.pushes v).2.1 q dn l bs rfl
              exact w3 q dn l' bs' (by rw [e]; exact List.mem_cons_self)
            · exact w3 q dn l bs (List.mem_cons_of_mem _ v)
        · exact .inr (.inr (ret w))

end Step

theorem RcDone.load {σ : RcStore} {ths : List RcT} {p : List RcI}
    (d : RcDone σ (⟨none, []⟩ :: ths))
    (q : (∀ j ∈ p, j.benign = true) ∨ ∃ c, p = [.deref c, .drainW c, .drainR c, .retire c]) :
    RcDone σ (⟨none, p⟩ :: ths) := by
  have nb : ∀ j ∈ p, (∀ x, j ≠ .born x) ∧ (∀ r dn l bs, j ≠ .ask r dn l bs) := by
    intro j hj
    rcases q with q | ⟨c, rfl⟩
    · have := q j hj
      constructor <;> intros <;> rintro rfl <;> cases this
    · simp only [List.mem_cons, List.not_mem_nil, or_false] at hj
      constructor <;> intros <;> rintro rfl <;> simp at hj
  refine ⟨?_, d.uniq, ?_, ?_, ?_, ?_⟩
  · intro t ht r er
    cases ht with
    | head => cases er
    | tail _ ht => exact d.unf t (List.mem_cons_of_mem _ ht) r er
  · intro t ht x hx
    cases ht with
    | head => exact absurd rfl ((nb _ hx).1 x)
    | tail _ ht => exact d.born t (List.mem_cons_of_mem _ ht) x hx
  · intro t ht r dn l bs hx
    cases ht with
    | head => exact absurd rfl ((nb _ hx).2 r dn l bs)
    | tail _ ht => exact d.ask t (List.mem_cons_of_mem _ ht) r dn l bs hx
  · intro t ht c hc
    cases ht with
    | head =>
      rcases q with q | ⟨c', rfl⟩
      · cases q _ hc
      · simp at hc
        subst hc
        refine ⟨by simp, ?_⟩
        intro x hx
        simpa using hx
    | tail _ ht => exact d.cl t (List.mem_cons_of_mem _ ht) c hc
  · intro t ht r er
    cases ht with
    | head => cases er
    | tail _ ht =>
      rcases d.done t (List.mem_cons_of_mem _ ht) r er with w | w | ⟨t', ht', w⟩ | w
      · exact .inl w
      · exact .inr (.inl w)
      · refine .inr (.inr (.inl ?_))
        cases ht' with
        | head => cases w
        | tail _ ht' => exact ⟨t', List.mem_cons_of_mem _ ht', w⟩
      · exact .inr (.inr (.inr w))

theorem RcDone.start {σ : RcStore} {T : List RcT} {r : RcReq} {dn : Nat → Nat}
    (h : RcInv σ T) (d : RcDone σ T) (po : rcPossible σ r) (uf : r.forced = false) :
    RcDone (rcUpd σ r.client fun o => { o with used := true, live := true, rd := [], wr := [] })
      (T ++ [⟨some r, rcServe dn r⟩]) := by
  have L := h.links
  obtain ⟨kc, uc, _, nd, kos⟩ := po
  have nl : ¬ (σ r.client).live = true := by
    intro e; rw [(L.used _).1 e] at uc; cases uc
  have pb : (σ r.client).pub = false := by
    cases e : (σ r.client).pub with
    | false => rfl
    | true => exact absurd ((L.used _).2 e) nl
  have ne : ∀ t ∈ T, ∀ q, t.tag = some q → q.client ≠ r.client := by
    intro t ht q eq e
    have := L.tagsU t ht q eq
    rw [e, uc] at this; cases this
  have ss : ∀ x, x ≠ r.client → rcUpd σ r.client (fun o => { o with used := true, live := true, rd := [], wr := [] }) x = σ x :=
    fun x ne => upd_ne ne
  have pp : (rcUpd σ r.client (fun o => { o with used := true, live := true, rd := [], wr := [] }) r.client).pub = false := by
    rw [upd_same]; exact pb
  generalize rcUpd σ r.client (fun o => { o with used := true, live := true, rd := [], wr := [] }) = σ' at *
  have nt : RcT.pend ⟨some r, rcServe dn r⟩ = r.pairs := rcServe_pend dn r
  have split : ∀ {t}, t ∈ T ++ [⟨some r, rcServe dn r⟩] → t ∈ T ∨ t = ⟨some r, rcServe dn r⟩ := by
    intro t ht
    rcases List.mem_append.mp ht with z | z
    · exact .inl z
    · exact .inr (List.mem_singleton.mp z)
  refine ⟨?_, ?_, ?_, ?_, ?_, ?_⟩
  · intro t ht q eq
    rcases split ht with z | rfl
    · exact d.unf t z q eq
    · cases eq; exact uf
  · rw [List.map_append, List.pairwise_append]
    refine ⟨d.uniq, List.pairwise_singleton _ _, ?_⟩
    intro g hg g' hg' q q' eq eq'
    obtain ⟨t, ht, rfl⟩ := List.mem_map.mp hg
    rw [List.map_singleton, List.mem_singleton] at hg'
    subst hg'
    cases eq'
    exact ne t ht q eq
  · intro t ht x hx
    rcases split ht with z | rfl
    · exact d.born t z x hx
    · dsimp only at hx
      rcases rcServe_mem hx with ⟨c, os, _, e⟩ | e | e | ⟨o, n, _, e⟩ | ⟨a, b, f, e, _⟩ <;> cases e
      exact ⟨r, rfl, rfl⟩
  · intro t ht q dn' l bs hx
    rcases split ht with z | rfl
    · obtain ⟨e1, e2, e3⟩ := d.ask t z q dn' l bs hx
      refine ⟨e1, e2, ?_⟩
      rw [ss _ (ne t z q e1)]; exact e3
    · dsimp only at hx
      rcases rcServe_mem hx with ⟨c, os, e', e⟩ | e | e | ⟨o, n, _, e⟩ | ⟨a, b, f, e, _⟩ <;> cases e
      refine ⟨rfl, ?_, pp⟩
      rw [e']; rfl
  · intro t ht c hc
    rcases split ht with z | rfl
    · exact d.cl t z c hc
    · dsimp only at hc
      rcases rcServe_mem hc with ⟨c, os, _, e⟩ | e | e | ⟨o, n, _, e⟩ | ⟨a, b, f, e, _⟩ <;> cases e
  · intro t ht q eq
    rcases split ht with z | rfl
    · rcases d.done t z q eq with w | w | ⟨t', ht', w⟩ | w
      · left
        intro a b pr
        rcases w a b pr with v | v
        · exact .inl v
        · right
          have la := L.rdL a b v.1
          have na : a ≠ r.client := by intro e; exact nl (e ▸ la.1)
          have nb : b ≠ r.client := by intro e; exact nl (e ▸ la.2.1)
          unfold rcLinked
          rw [ss a na, ss b nb]
          exact v
      · rw [ss _ (ne t z q eq)]; exact .inr (.inl w)
      · exact .inr (.inr (.inl ⟨t', List.mem_append_left _ ht', w⟩))
      · rw [ss _ (ne t z q eq)]; exact .inr (.inr (.inr w))
    · cases eq
      left
      intro a b pr
      left
      rw [nt]; exact pr

/-! ### Histories -/

theorem RcDone.go {σ σ' : RcStore} {A B : List RcT} {g} {i : RcI} {k push : List RcI}
    (h : RcInv σ (A ++ ⟨g, i.strip :: k⟩ :: B)) (d : RcDone σ (A ++ ⟨g, i.strip :: k⟩ :: B))
    (e : rcStep σ i = some (σ', push)) : RcDone σ' (A ++ ⟨g, push.map RcI.strip ++ k⟩ :: B) := by
  refine d.step h (rcStep_astep e ?_)
  intro c f e
  have := h.shape.typ _ (has_head (A := A) (B := B))
  rw [strip_toggle.mp e] at this
  exact this

theorem done_start {σ : RcStore} : RcDone σ (RcSys.view ⟨σ, [], []⟩) := by
  refine ⟨?_, List.pairwise_singleton _ _, ?_, ?_, ?_, ?_⟩
  · intro t ht r er; rw [List.mem_singleton.mp ht] at er; cases er
  · intro t ht x hx; rw [List.mem_singleton.mp ht] at hx; cases hx
  · intro t ht r dn l bs hx; rw [List.mem_singleton.mp ht] at hx; cases hx
  · intro t ht x hx; rw [List.mem_singleton.mp ht] at hx; cases hx
  · intro t ht r er; rw [List.mem_singleton.mp ht] at er; cases er

theorem done_step {s s' : RcSys} {ev : RcEv} (h : s.good) (d : RcDone s.σ s.view)
    (c : rcCalm s.serving s.closing ev) (m : rcMild ev) (e : s.step ev = some s') :
    RcDone s'.σ s'.view := by
  cases ev with
  | start r dn =>
    simp only [RcSys.step] at e
    split at e
    · rename_i po
      cases e
      have := RcDone.start (dn := dn) h d po m
      simp only [RcSys.view, List.map_append, List.map_cons, List.map_nil, rcServe_strip]
      exact this
    · cases e; exact d
  | act a =>
    simp only [RcSys.step] at e
    split at e
    · rename_i ca
      obtain ⟨m0, ca⟩ := ca
      cases e
      have d' : RcDone s.σ (⟨none, []⟩ :: s.ths.map fun t => ⟨some t.req, t.todo.map RcI.strip⟩) := by
        have := d
        simp only [RcSys.view, m0, List.map_nil] at this
        exact this
      simp only [RcSys.view]
      cases a with
      | feed x =>
        refine d'.load (.inl ?_)
        intro j hj; rw [List.mem_singleton.mp hj]; rfl
      | notice o =>
        have q := harmless_strip (harmless_notify (l := fun x => (s.σ x).live = true) ca.2)
        exact d'.load (.inl fun j hj => (q j hj).1)
      | close x => exact d'.load (.inr ⟨x, rfl⟩)
      | toggle x f => exact absurd c id
    · cases e; exact d
  | main =>
    simp only [RcSys.step] at e
    split at e
    · cases e; exact d
    · rename_i i k em
      have h' := h
      have d' := d
      simp only [RcSys.good, RcSys.view, em, List.map_cons] at h' d'
      cases e1 : rcStep s.σ i with
      | none => rw [e1] at e; cases e
      | some r =>
        rw [e1] at e
        cases e
        have := RcDone.go (A := []) h' d' e1
        simp only [RcSys.view, List.map_append, List.map_map, Function.comp_def, strip_adj]
        exact this
  | run n =>
    simp only [RcSys.step] at e
    split at e
    · cases e; exact d
    · rename_i t et
      split at e
      · cases e; exact d
      · rename_i i k em
        obtain ⟨l1, l2, el, ln⟩ := view_set et
        have h' := h
        have d' := d
        simp only [RcSys.good, RcSys.view, el, List.map_append, List.map_cons, em] at h' d'
        rw [← List.cons_append] at h' d'
        cases e1 : rcStep s.σ i with
        | none => rw [e1] at e; cases e
        | some r =>
          rw [e1] at e
          cases e
          have := RcDone.go h' d' e1
          have es : ((s.ths.map fun t : RcTh => { t with todo := t.todo.map (rcAdj s.σ i) }).set n
              { t with todo := r.2 ++ k.map (rcAdj s.σ i) }) =
              (l1.map fun t : RcTh => { t with todo := t.todo.map (rcAdj s.σ i) }) ++
              { t with todo := r.2 ++ k.map (rcAdj s.σ i) } ::
              (l2.map fun t : RcTh => { t with todo := t.todo.map (rcAdj s.σ i) }) := by
            rw [el, List.map_append, List.map_cons, List.set_append_right _ _ (by simp [ln])]
            simp [ln]
          simp only [RcSys.view]
          rw [es]
          simp only [List.map_append, List.map_cons, List.map_map, Function.comp_def, strip_adj]
          exact this

theorem done_run {s s' : RcSys} {evs : List RcEv} (h : s.good) (d : RcDone s.σ s.view)
    (c : s.calm evs) (m : ∀ ev ∈ evs, rcMild ev) (e : s.run evs = some s') :
    RcDone s'.σ s'.view := by
  induction evs generalizing s with
  | nil => cases e; exact d
  | cons ev evs ih =>
    obtain ⟨s1, e1, g1⟩ := good_step h c.1
    rw [RcSys.run, e1] at e
    exact ih g1 (done_step h d c.1 (m ev List.mem_cons_self) e1) (c.2 s1 e1)
      (fun ev h => m ev (List.mem_cons_of_mem _ h)) e

/-! ### Objects that are never given back -/

/-- Only clients are taken off the master list. -/
def RcSys.safe (s : RcSys) : Prop :=
  (∀ i ∈ s.main, ∀ c, i = .retire c → (s.σ c).kind = .client) ∧
  ∀ t ∈ s.ths, ∀ i ∈ t.todo, ∀ c, i ≠ .retire c

theorem rcStep_kept {σ σ' : RcStore} {i : RcI} {push : List RcI}
    (h : rcStep σ i = some (σ', push)) :
    (∀ j ∈ push, ∀ c, j ≠ .retire c) ∧ (∀ x, (σ' x).kind = (σ x).kind) ∧
    ∀ x, (σ x).live = true → (σ' x).live = true ∨ i = .retire x := by
  by_cases nt : ∃ c f, i = .toggle c f
  · obtain ⟨c, f, rfl⟩ := nt
    simp only [rcStep] at h
    split at h
    · split at h
      · cases h
      · split at h <;> cases h
        · exact ⟨(by intro j hj c e; rw [List.mem_singleton.mp hj] at e; cases e), fun _ => rfl,
            fun _ h => .inl h⟩
        · exact ⟨(by intro j hj c e; rw [List.mem_singleton.mp hj] at e; cases e), fun _ => rfl,
            fun _ h => .inl h⟩
    · cases h
  · have a := rcStep_astep h (fun c f e => nt ⟨c, f, e⟩)
    refine ⟨?_, a.kind, ?_⟩
    · intro j hj c e
      exact (a.pushes (List.mem_map_of_mem hj)).2.2.1 c (strip_retire.mp e)
    · intro x lx
      generalize ei : i.strip = i' at a
      generalize push.map RcI.strip = p' at a
      cases a <;> first
        | exact .inl lx
        | skip
      all_goals
        unfold rcUpd
        split
        · first
            | exact .inl lx
            | (rename_i e; subst e; exact .inr (strip_retire.mpr ei))
        · exact .inl lx

theorem adj_retire {σ : RcStore} {i j : RcI} {c} : rcAdj σ i j = .retire c ↔ j = .retire c := by
  rw [strip_retire, strip_adj, ← strip_retire]

theorem safe_step {s s' : RcSys} {ev : RcEv} (h : s.safe) (e : s.step ev = some s') :
    s'.safe ∧ (∀ x, (s'.σ x).kind = (s.σ x).kind) ∧
    ∀ x, (s.σ x).kind ≠ .client → (s.σ x).live = true → (s'.σ x).live = true := by
  cases ev with
  | start r dn =>
    simp only [RcSys.step] at e
    split at e
    · rename_i po
      cases e
      have kk : ∀ x, (rcUpd s.σ r.client (fun o => { o with used := true, live := true, rd := [], wr := [] }) x).kind = (s.σ x).kind := by
        intro x; unfold rcUpd; split <;> rfl
      refine ⟨⟨?_, ?_⟩, kk, ?_⟩
      · intro i hi c e
        dsimp only
        rw [kk]
        exact h.1 i hi c e
      · intro t ht
        rcases List.mem_append.mp ht with z | z
        · exact h.2 t z
        · rw [List.mem_singleton] at z; subst z
          intro i hi c e
          dsimp only at hi
          subst e
          rcases rcServe_mem hi with ⟨c, os, _, e⟩ | e | e | ⟨o, n, _, e⟩ | ⟨a, b, f, e, _⟩ <;> cases e
      · intro x _ lx
        dsimp only
        unfold rcUpd
        split
        · rfl
        · exact lx
    · cases e; exact ⟨h, fun _ => rfl, fun _ _ l => l⟩
  | act a =>
    simp only [RcSys.step] at e
    split at e
    · rename_i ca
      cases e
      refine ⟨⟨?_, h.2⟩, fun _ => rfl, fun _ _ l => l⟩
      intro i hi c e
      dsimp only at hi
      subst e
      cases a with
      | feed x => cases List.mem_singleton.mp hi
      | notice x => simp [rcActs, rcNotify] at hi
      | close x =>
        simp [rcActs] at hi
        subst hi
        exact ca.2.1
      | toggle x f => cases List.mem_singleton.mp hi
    · cases e; exact ⟨h, fun _ => rfl, fun _ _ l => l⟩
  | main =>
    simp only [RcSys.step] at e
    split at e
    · cases e; exact ⟨h, fun _ => rfl, fun _ _ l => l⟩
    · rename_i i k em
      cases e1 : rcStep s.σ i with
      | none => rw [e1] at e; cases e
      | some r =>
        rw [e1] at e
        cases e
        obtain ⟨k1, k2, k3⟩ := rcStep_kept e1
        refine ⟨⟨?_, ?_⟩, k2, ?_⟩
        · intro j hj c e
          dsimp only at hj ⊢
          rw [k2]
          rcases List.mem_append.mp hj with z | z
          · exact absurd e (k1 j z c)
          · obtain ⟨j', hj', rfl⟩ := List.mem_map.mp z
            exact h.1 j' (by rw [em]; exact List.mem_cons_of_mem _ hj') c (adj_retire.mp e)
        · intro t ht j hj c e
          obtain ⟨t', ht', rfl⟩ := List.mem_map.mp ht
          obtain ⟨j', hj', rfl⟩ := List.mem_map.mp hj
          exact h.2 t' ht' j' hj' c (adj_retire.mp e)
        · intro x kx lx
          rcases k3 x lx with z | z
          · exact z
          · exact absurd (h.1 i (by rw [em]; exact List.mem_cons_self) x z) kx
  | run n =>
    simp only [RcSys.step] at e
    split at e
    · cases e; exact ⟨h, fun _ => rfl, fun _ _ l => l⟩
    · rename_i t et
      split at e
      · cases e; exact ⟨h, fun _ => rfl, fun _ _ l => l⟩
      · rename_i i k em
        have ht := List.mem_of_getElem? et
        cases e1 : rcStep s.σ i with
        | none => rw [e1] at e; cases e
        | some r =>
          rw [e1] at e
          cases e
          obtain ⟨k1, k2, k3⟩ := rcStep_kept e1
          refine ⟨⟨?_, ?_⟩, k2, ?_⟩
          · intro j hj c e
            dsimp only at hj ⊢
            rw [k2]
            obtain ⟨j', hj', rfl⟩ := List.mem_map.mp hj
            exact h.1 j' hj' c (adj_retire.mp e)
          · intro t' ht' j hj c e
            rcases List.mem_or_eq_of_mem_set ht' with z | z
            · obtain ⟨t'', ht'', rfl⟩ := List.mem_map.mp z
              obtain ⟨j', hj', rfl⟩ := List.mem_map.mp hj
              exact h.2 t'' ht'' j' hj' c (adj_retire.mp e)
            · subst z
              rcases List.mem_append.mp hj with z | z
              · exact k1 j z c e
              · obtain ⟨j', hj', rfl⟩ := List.mem_map.mp z
                exact h.2 t ht j' (by rw [em]; exact List.mem_cons_of_mem _ hj') c (adj_retire.mp e)
          · intro x kx lx
            rcases k3 x lx with z | z
            · exact z
            · exact absurd z (h.2 t ht i (by rw [em]; exact List.mem_cons_self) x)

theorem safe_run {s s' : RcSys} {evs : List RcEv} (h : s.safe) (e : s.run evs = some s') :
    ∀ x, (s.σ x).kind ≠ .client → (s.σ x).live = true → (s'.σ x).live = true := by
  induction evs generalizing s with
  | nil => cases e; exact fun _ _ l => l
  | cons ev evs ih =>
    cases e1 : s.step ev with
    | none => rw [RcSys.run, e1] at e; cases e
    | some s1 =>
      rw [RcSys.run, e1] at e
      obtain ⟨a, b, c⟩ := safe_step h e1
      intro x kx lx
      exact ih a e x (by rw [b]; exact kx) (c x kx lx)

/-! ### For examples -/

instance (rs : List RcReq) (b : Bool) (ev : RcEv) : Decidable (rcCalm rs b ev) := by
  unfold rcCalm; split <;> infer_instance

/-- A check of histories. -/
def RcSys.calmly : RcSys → List RcEv → Bool
  | _, [] => true
  | s, e :: h => decide (rcCalm s.serving s.closing e) &&
      match s.step e with
      | none => true
      | some s' => s'.calmly h

theorem calmly_calm {s : RcSys} {evs : List RcEv} (h : s.calmly evs = true) : s.calm evs := by
  induction evs generalizing s with
  | nil => trivial
  | cons ev evs ih =>
    rw [RcSys.calmly, Bool.and_eq_true] at h
    refine ⟨of_decide_eq_true h.1, ?_⟩
    intro s' e
    have h2 := h.2
    rw [e] at h2
    exact ih h2

end Conman
