import Verif.Lemma.Races

namespace Conman

open Spec

/-! ### What the main thread begins -/

theorem RcInv.load {σ : RcStore} {ths : List RcT} {p : List RcI}
    (h : RcInv σ (⟨none, []⟩ :: ths)) (ty : ∀ j ∈ p, rcTyped σ j)
    (rf : ∀ j ∈ p, ∀ x ∈ j.refs, (σ x).live = true)
    (q : (∀ j ∈ p, j.benign = true) ∨ (∃ c, p = [.deref c, .drainW c, .drainR c, .retire c]) ∧
      ∀ t ∈ ths, t.todo = []) : RcInv σ (⟨none, p⟩ :: ths) := by
  have np : p.flatMap RcI.pend = [] := by
    rw [List.flatMap_eq_nil_iff]
    rcases q with q | ⟨⟨c, rfl⟩, _⟩
    · intro j hj
      have := q j hj
      cases j <;> first | rfl | cases this
    · intro j hj
      simp only [List.mem_cons, List.not_mem_nil, or_false] at hj
      rcases hj with rfl | rfl | rfl | rfl <;> rfl
  have ps : pends (⟨none, p⟩ :: ths) = pends (⟨none, []⟩ :: ths) := by
    simp only [pends, List.flatMap_cons, RcT.pend, np, List.flatMap_nil]
  have hs : ∀ j, hasI (⟨none, p⟩ :: ths) j → j ∈ p ∨ hasI (⟨none, []⟩ :: ths) j := by
    rintro j ⟨t, ht, hj⟩
    cases ht with
    | head => exact .inl hj
    | tail _ ht => exact .inr ⟨t, List.mem_cons_of_mem _ ht, hj⟩
  have sh : ∀ j, hasI (⟨none, []⟩ :: ths) j → hasI (⟨none, p⟩ :: ths) j := by
    rintro j ⟨t, ht, hj⟩
    cases ht with
    | head => cases hj
    | tail _ ht => exact ⟨t, List.mem_cons_of_mem _ ht, hj⟩
  have nb : ∀ j ∈ p, (∀ a b, j ≠ .add2 a b) ∧ (∀ a b, j ≠ .cut2 a b) ∧ (∀ a b, j ≠ .cut1 a b) ∧
      ∀ d, j ≠ .stealW d 0 := by
    intro j hj
    rcases q with q | ⟨⟨c, rfl⟩, _⟩
    · have := q j hj
      refine ⟨?_, ?_, ?_, ?_⟩ <;> intros <;> rintro rfl <;> cases this
    · simp only [List.mem_cons, List.not_mem_nil, or_false] at hj
      refine ⟨?_, ?_, ?_, ?_⟩ <;> intros <;> rintro rfl <;> simp at hj
  have hp : ∀ j, (∃ a b, j = .add2 a b ∨ j = .cut2 a b ∨ j = .cut1 a b) →
      hasI (⟨none, p⟩ :: ths) j → hasI (⟨none, []⟩ :: ths) j := by
    rintro j ⟨a, b, e⟩ hj
    rcases hs j hj with z | z
    · rcases e with rfl | rfl | rfl
      · exact absurd rfl ((nb _ z).1 a b)
      · exact absurd rfl ((nb _ z).2.1 a b)
      · exact absurd rfl ((nb _ z).2.2.1 a b)
    · exact z
  have S := h.shape
  have L := h.links
  have rt : ∀ c, .retire c ∈ p → p = [.deref c, .drainW c, .drainR c, .retire c] ∧
      ∀ t ∈ ths, t.todo = [] := by
    intro c hc
    rcases q with q | ⟨⟨c', rfl⟩, e⟩
    · cases q _ hc
    · simp at hc; subst hc; exact ⟨rfl, e⟩
  constructor
  · refine ⟨?_, by rw [ps]; exact S.nd, ?_, ?_, ?_, ?_, ?_, ⟨p, ths, rfl, ?_⟩, ?_⟩
    · intro j hj
      rcases hs j hj with z | z
      · exact ty j z
      · exact S.typ j z
    · intro t ht x hx
      cases ht with
      | head => rw [RcT.pend, np] at hx; cases hx
      | tail _ ht => exact S.own t (List.mem_cons_of_mem _ ht) x hx
    · intro t ht j hj f
      cases ht with
      | head =>
        rcases q with q | ⟨⟨c, rfl⟩, _⟩
        · have := q j hj
          cases j <;> first | (cases f; done) | (cases this; done)
        · exact .inr ⟨c, by simp⟩
      | tail _ ht => exact S.force t (List.mem_cons_of_mem _ ht) j hj f
    · intro t ht X Y d e
      cases ht with
      | head =>
        dsimp only at e
        exact absurd rfl ((nb (.stealW d 0) (by rw [e]; simp)).2.2.2 d)
      | tail _ ht => exact S.steal t (List.mem_cons_of_mem _ ht) X Y d e
    · intro t ht t' ht' r r' er er'
      cases ht with
      | head => cases er
      | tail _ ht =>
        cases ht' with
        | head => cases er'
        | tail _ ht' =>
          exact S.guard t (List.mem_cons_of_mem _ ht) t' (List.mem_cons_of_mem _ ht') r r' er er'
    · intro t ht c hc
      cases ht with
      | head =>
        obtain ⟨e, em⟩ := rt c hc
        refine ⟨rfl, ?_, [.deref c, .drainW c, .drainR c], e, by simp⟩
        intro t' ht' ne
        cases ht' with
        | head => exact absurd rfl ne
        | tail _ ht' => exact em t' ht'
      | tail _ ht =>
        obtain ⟨m, th', e, ng⟩ := S.main
        injection e with _ e
        exact absurd (S.retire t (List.mem_cons_of_mem _ ht) c hc).1 (ng t (e ▸ ht))
    · obtain ⟨m, th', e, ng⟩ := S.main
      injection e with _ e
      rw [e]; exact ng
    · intro t ht r er
      cases ht with
      | head => cases er
      | tail _ ht => exact S.tags t (List.mem_cons_of_mem _ ht) r er
  · refine ⟨L.rdL, L.wrL, ?_, ?_, ?_, ?_, ?_, ?_, ?_, ?_, L.used, ?_⟩
    · intro j hj
      rcases hs j hj with z | z
      · exact rf j z
      · exact L.refsL j z
    · intro a b z
      exact (L.s1 a b z).imp id (sh _)
    · intro a b z
      exact (L.s2 a b z).imp id (sh _)
    · intro a b z
      exact L.c2 a b (hp _ ⟨a, b, .inr (.inl rfl)⟩ z)
    · intro a b z
      exact L.a2 a b (hp _ ⟨a, b, .inl rfl⟩ z)
    · intro a b z
      rw [ps] at z
      obtain ⟨z1, z2, z3, z4, z5⟩ := L.pnd a b z
      refine ⟨z1, fun y => z2 (hp _ ⟨a, b, .inr (.inr rfl)⟩ y),
        fun y => z3 (hp _ ⟨a, b, .inr (.inl rfl)⟩ y), fun ka => ?_, fun y => sh _ (z5 y)⟩
      have no : (∀ j ∈ p, j.benign = true) := by
        rcases q with q | ⟨_, em⟩
        · exact q
        · exfalso
          have : pends (⟨none, []⟩ :: ths) = [] := by
            rw [pends, List.flatMap_eq_nil_iff]
            intro t ht
            cases ht with
            | head => rfl
            | tail _ ht => rw [RcT.pend, em t ht]; rfl
          rw [this] at z; cases z
      constructor <;> intro y <;> rcases hs _ y with w | w
      · cases no _ w
      · exact (z4 ka).1 w
      · cases no _ w
      · exact (z4 ka).2 w
    · intro t ht r a b er z ka br
      rw [ps]
      cases ht with
      | head => cases er
      | tail _ ht => exact L.single t (List.mem_cons_of_mem _ ht) r a b er z ka br
    · intro t ht c hc
      cases ht with
      | head =>
        obtain ⟨e, _⟩ := rt c hc
        dsimp only
        rw [e]
        exact ⟨.inl (by simp), .inl (by simp)⟩
      | tail _ ht => exact L.drains t (List.mem_cons_of_mem _ ht) c hc
    · intro t ht r er
      cases ht with
      | head => cases er
      | tail _ ht => exact L.tagsU t (List.mem_cons_of_mem _ ht) r er

/-! ### A new request -/

theorem pairs_nodup {r : RcReq} (nd : r.consoles.Nodup) (nc : r.client ∉ r.consoles) :
    r.pairs.Nodup := by
  unfold RcReq.pairs
  split
  · rename_i c o _ _
    have ne : c ≠ o := by
      intro e; subst e; exact nc (by simp [RcReq.consoles, RcReq.client])
    simp [ne]
  · rename_i c os _ _ hne
    have nd' : os.Nodup := nd
    clear nd nc hne
    induction os with
    | nil => exact List.nodup_nil
    | cons o os ih =>
      rw [List.nodup_cons] at nd'
      rw [List.map_cons, List.nodup_cons]
      refine ⟨?_, ih nd'.2⟩
      intro h
      obtain ⟨o', ho', e⟩ := List.mem_map.mp h
      injection e with _ e
      subst e
      exact nd'.1 ho'
  · exact List.nodup_cons.mpr ⟨by simp, List.nodup_nil⟩

theorem pairs_single (r : RcReq) (br : r.broad = false) (ncn : r.client ∉ r.consoles)
    (b b' : Nat) (h1 : (r.client, b) ∈ r.pairs) (h2 : (r.client, b') ∈ r.pairs) : b' = b := by
  cases r with
  | monitor c o =>
    simp only [RcReq.pairs, RcReq.client, List.mem_singleton, Prod.mk.injEq] at h1 h2
    rw [h1.2, h2.2]
  | connect c os f j =>
    match os with
    | [] => cases br
    | [o] =>
      simp only [RcReq.client, RcReq.consoles, List.mem_singleton] at ncn
      simp only [RcReq.pairs, RcReq.client, List.mem_cons, Prod.mk.injEq, true_and,
        List.not_mem_nil, or_false] at h1 h2
      rcases h1 with h1 | h1
      · rcases h2 with h2 | h2
        · rw [h1, h2]
        · exact absurd h2.1 ncn
      · exact absurd h1.1 ncn
    | _ :: _ :: _ => cases br

theorem rcServe_mem {dn r j} (h : j ∈ rcServe dn r) :
    (∃ c os, r = .connect c os false false ∧ j = .ask r dn os []) ∨
    j = .born r.client ∨ j = .deref r.client ∨ (∃ o n, o ∈ r.consoles ∧ j = .state o r.client n) ∨
    ∃ a b f, j = .link a b f ∧ (a, b) ∈ r.pairs ∧ (f = true → r.forced = true) := by
  unfold rcServe at h
  split at h
  · exact .inl ⟨_, _, rfl, List.mem_singleton.mp h⟩
  · exact .inr (rcPerform_mem h)

theorem rcServe_pend (dn r) : (rcServe dn r).flatMap RcI.pend = r.pairs := by
  unfold rcServe
  split
  · simp [RcI.pend]
  · exact rcPerform_pend dn r

theorem rcServe_strip (dn r) : (rcServe dn r).map RcI.strip = rcServe dn r := by
  unfold rcServe
  split
  · rfl
  · exact strip_rcPerform dn r

theorem RcInv.start {σ : RcStore} {T : List RcT} {r : RcReq} {dn : Nat → Nat}
    (h : RcInv σ T) (po : rcPossible σ r) (nr : ∀ c, ¬ hasI T (.retire c))
    (gd : ∀ t ∈ T, ∀ q, t.tag = some q → t.todo ≠ [] →
      ¬ (r.broad = true ∧ q.forced = true) ∧ ¬ (q.broad = true ∧ r.forced = true)) :
    RcInv (rcUpd σ r.client fun o => { o with used := true, live := true, rd := [], wr := [] })
      (T ++ [⟨some r, rcServe dn r⟩]) := by
  have S := h.shape
  have L := h.links
  obtain ⟨kc, uc, _, nd, kos⟩ := po
  have lc : (σ r.client).live = false := by
    cases e : (σ r.client).live with
    | false => rfl
    | true => rw [(L.used _).1 e] at uc; cases uc
  have nl : ¬ (σ r.client).live = true := by rw [lc]; intro e; cases e
  have ncn : r.client ∉ r.consoles := by
    intro e; have := (kos _ e).1; rw [kc] at this; cases this
  have rc0 : (σ r.client).rd = [] := by
    apply List.eq_nil_iff_forall_not_mem.mpr
    intro b hb; exact nl (L.rdL _ _ hb).1
  have wc0 : (σ r.client).wr = [] := by
    apply List.eq_nil_iff_forall_not_mem.mpr
    intro b hb; exact nl (L.wrL _ _ hb).2.1
  have er : ∀ x, (rcUpd σ r.client (fun o => { o with used := true, live := true, rd := [], wr := [] }) x).rd = (σ x).rd := by
    intro x; unfold rcUpd; split
    · rename_i e; subst e; exact rc0.symm
    · rfl
  have ew : ∀ x, (rcUpd σ r.client (fun o => { o with used := true, live := true, rd := [], wr := [] }) x).wr = (σ x).wr := by
    intro x; unfold rcUpd; split
    · rename_i e; subst e; exact wc0.symm
    · rfl
  have kk : ∀ x, (rcUpd σ r.client (fun o => { o with used := true, live := true, rd := [], wr := [] }) x).kind = (σ x).kind := by
    intro x; unfold rcUpd; split <;> rfl
  have lu : ∀ x, (σ x).live = true → (rcUpd σ r.client (fun o => { o with used := true, live := true, rd := [], wr := [] }) x).live = true := by
    intro x; unfold rcUpd; split
    · intro _; rfl
    · exact id
  have uu : ∀ x, (σ x).used = true → (rcUpd σ r.client (fun o => { o with used := true, live := true, rd := [], wr := [] }) x).used = true := by
    intro x; unfold rcUpd; split
    · intro _; rfl
    · exact id
  have us : ∀ x, ((rcUpd σ r.client (fun o => { o with used := true, live := true, rd := [], wr := [] }) x).live = true →
        (rcUpd σ r.client (fun o => { o with used := true, live := true, rd := [], wr := [] }) x).used = true) ∧
      ((rcUpd σ r.client (fun o => { o with used := true, live := true, rd := [], wr := [] }) x).pub = true →
        (rcUpd σ r.client (fun o => { o with used := true, live := true, rd := [], wr := [] }) x).live = true) := by
    intro x
    unfold rcUpd
    split
    · exact ⟨fun _ => rfl, fun _ => rfl⟩
    · exact L.used x
  have cl : (rcUpd σ r.client (fun o => { o with used := true, live := true, rd := [], wr := [] }) r.client).live = true ∧
      (rcUpd σ r.client (fun o => { o with used := true, live := true, rd := [], wr := [] }) r.client).used = true := by
    rw [upd_same]; exact ⟨rfl, rfl⟩
  generalize rcUpd σ r.client (fun o => { o with used := true, live := true, rd := [], wr := [] }) = σ' at *
  -- old connections are not of the new client
  have oldp : ∀ t ∈ T, ∀ a b, (a, b) ∈ t.pend → a ≠ r.client ∧ b ≠ r.client := by
    intro t ht a b hp
    obtain ⟨q, eq, pq⟩ := S.own t ht _ hp
    have uq := L.tagsU t ht q eq
    have kq := (S.tags t ht q eq).2
    have n1 : q.client ≠ r.client := by
      intro e; rw [e, uc] at uq; cases uq
    have n2 : r.client ∉ q.consoles := by
      intro e; have := kq _ e; rw [kc] at this; cases this
    rcases pairs_mem pq with ⟨e1, e2⟩ | ⟨e1, e2⟩
    · exact ⟨fun e => n1 (e1 ▸ e), fun e => n2 (e ▸ e2)⟩
    · exact ⟨fun e => n2 (e ▸ e2), fun e => n1 (e1 ▸ e)⟩
  have olds : ∀ a b, (a, b) ∈ pends T → a ≠ r.client ∧ b ≠ r.client := by
    intro a b hp
    obtain ⟨t, ht, hp⟩ := List.mem_flatMap.mp hp
    exact oldp t ht a b hp
  have nt : RcT.pend ⟨some r, rcServe dn r⟩ = r.pairs := rcServe_pend dn r
  have ps : pends (T ++ [⟨some r, rcServe dn r⟩]) = pends T ++ r.pairs := by
    simp only [pends, List.flatMap_append, List.flatMap_cons, List.flatMap_nil, List.append_nil, nt]
  have hs : ∀ j, hasI (T ++ [⟨some r, rcServe dn r⟩]) j → hasI T j ∨ j ∈ rcServe dn r := by
    rintro j ⟨t, ht, hj⟩
    rcases List.mem_append.mp ht with ht | ht
    · exact .inl ⟨t, ht, hj⟩
    · rw [List.mem_singleton] at ht; subst ht; exact .inr hj
  have sh : ∀ j, hasI T j → hasI (T ++ [⟨some r, rcServe dn r⟩]) j := by
    rintro j ⟨t, ht, hj⟩
    exact ⟨t, List.mem_append_left _ ht, hj⟩
  have nn : ∀ j ∈ rcServe dn r, (∀ a b, j ≠ .add2 a b ∧ j ≠ .cut2 a b ∧ j ≠ .cut1 a b) ∧
      ∀ d, j ≠ .stealW d 0 ∧ j ≠ .drainW d ∧ j ≠ .drainR d ∧ j ≠ .retire d := by
    intro j hj
    rcases rcServe_mem hj with ⟨c, os, _, rfl⟩ | rfl | rfl | ⟨o, n, _, rfl⟩ | ⟨a, b, f, rfl, _⟩ <;>
      refine ⟨fun a b => ⟨?_, ?_, ?_⟩, fun d => ⟨?_, ?_, ?_, ?_⟩⟩ <;> intro e <;> cases e
  have hp : ∀ j, j ∉ rcServe dn r → hasI (T ++ [⟨some r, rcServe dn r⟩]) j → hasI T j :=
    fun j nj hj => (hs j hj).resolve_right nj
  have na2 : ∀ a b, RcI.add2 a b ∉ rcServe dn r := fun a b z => ((nn _ z).1 a b).1 rfl
  have nc2 : ∀ a b, RcI.cut2 a b ∉ rcServe dn r := fun a b z => ((nn _ z).1 a b).2.1 rfl
  have nc1 : ∀ a b, RcI.cut1 a b ∉ rcServe dn r := fun a b z => ((nn _ z).1 a b).2.2 rfl
  have nst : ∀ d, RcI.stealW d 0 ∉ rcServe dn r := fun d z => ((nn _ z).2 d).1 rfl
  have ndw : ∀ d, RcI.drainW d ∉ rcServe dn r := fun d z => ((nn _ z).2 d).2.1 rfl
  have ndr : ∀ d, RcI.drainR d ∉ rcServe dn r := fun d z => ((nn _ z).2 d).2.2.1 rfl
  have nre : ∀ d, RcI.retire d ∉ rcServe dn r := fun d z => ((nn _ z).2 d).2.2.2 rfl
  have pf : ∀ a b, (a, b) ∈ r.pairs → rcFits σ a b := by
    intro a b hp
    rcases pairs_mem hp with ⟨rfl, e⟩ | ⟨rfl, e⟩
    · exact .inl ⟨kc, (kos _ e).1⟩
    · exact .inr (.inl ⟨(kos _ e).1, kc⟩)
  have dead : ∀ i, hasI T i → r.client ∉ i.refs := fun i hi e => nl (L.refsL i hi _ e)
  have pc : ∀ a b, (a, b) ∈ r.pairs → a = r.client ∨ b = r.client := by
    intro a b hp
    rcases pairs_mem hp with ⟨e, _⟩ | ⟨e, _⟩
    · exact .inl e
    · exact .inr e
  have pk : ∀ a b, (a, b) ∈ r.pairs → (σ a).kind = .client → a = r.client := by
    intro a b hp ka
    rcases pairs_mem hp with ⟨e, _⟩ | ⟨_, e⟩
    · exact e
    · rw [(kos _ e).1] at ka; cases ka
  constructor
  · refine ⟨?_, ?_, ?_, ?_, ?_, ?_, ?_, ?_, ?_⟩
    · intro j hj
      rw [typed_congr kk]
      rcases hs j hj with z | z
      · exact S.typ j z
      · rcases rcServe_mem z with ⟨c, os, e, rfl⟩ | rfl | rfl | ⟨o, n, _, rfl⟩ | ⟨a, b, f, rfl, pm, _⟩
        · exact ⟨⟨c, os, e⟩, fun p hp => pf p.1 p.2 hp⟩
        · trivial
        · trivial
        · trivial
        · exact pf a b pm
    · rw [ps, List.nodup_append]
      refine ⟨S.nd, pairs_nodup nd ncn, ?_⟩
      rintro ⟨a, b⟩ ha ⟨a', b'⟩ hb e
      injection e with e1 e2
      subst e1 e2
      obtain ⟨n1, n2⟩ := olds _ _ ha
      rcases pc _ _ hb with e | e
      · exact n1 e
      · exact n2 e
    · intro t ht p hp
      rcases List.mem_append.mp ht with ht | ht
      · exact S.own t ht p hp
      · rw [List.mem_singleton] at ht; subst ht
        rw [nt] at hp
        exact ⟨r, rfl, hp⟩
    · intro t ht j hj f
      rcases List.mem_append.mp ht with ht | ht
      · exact S.force t ht j hj f
      · rw [List.mem_singleton] at ht; subst ht
        dsimp only at hj
        rcases rcServe_mem hj with ⟨c, os, _, rfl⟩ | rfl | rfl | ⟨o, n, _, rfl⟩ | ⟨a, b, f', rfl, _, ff⟩
        · cases f
        · cases f
        · cases f
        · cases f
        · cases f' with
          | false => cases f
          | true => exact .inl ⟨r, rfl, ff rfl⟩
    · intro t ht X Y d e
      rcases List.mem_append.mp ht with ht | ht
      · obtain ⟨c, h1, h2⟩ := S.steal t ht X Y d e
        exact ⟨c, h1, by rw [kk]; exact h2⟩
      · rw [List.mem_singleton] at ht; subst ht
        dsimp only at e
        exact absurd (by rw [e]; simp) (nst d)
    · intro t ht t' ht' q q' eq eq' ne ne' br fo
      rcases List.mem_append.mp ht with ht | ht
      · rcases List.mem_append.mp ht' with ht' | ht'
        · exact S.guard t ht t' ht' q q' eq eq' ne ne' br fo
        · rw [List.mem_singleton] at ht'; subst ht'
          cases eq'
          exact absurd ⟨br, fo⟩ (gd t ht q eq ne).2
      · rw [List.mem_singleton] at ht; subst ht
        cases eq
        rcases List.mem_append.mp ht' with ht' | ht'
        · exact absurd ⟨br, fo⟩ (gd t' ht' q' eq' ne').1
        · rw [List.mem_singleton] at ht'; subst ht'
          cases eq'; rfl
    · intro t ht c hc
      rcases List.mem_append.mp ht with ht | ht
      · exact absurd ⟨t, ht, hc⟩ (nr c)
      · rw [List.mem_singleton] at ht; subst ht
        exact absurd hc (nre c)
    · obtain ⟨m, ths, e, ng⟩ := S.main
      refine ⟨m, ths ++ [⟨some r, rcServe dn r⟩], by rw [e]; rfl, ?_⟩
      intro t ht
      rcases List.mem_append.mp ht with ht | ht
      · exact ng t ht
      · rw [List.mem_singleton] at ht; subst ht
        intro e; cases e
    · intro t ht q eq
      simp only [kk]
      rcases List.mem_append.mp ht with ht | ht
      · exact S.tags t ht q eq
      · rw [List.mem_singleton] at ht; subst ht
        cases eq
        exact ⟨kc, fun o ho => (kos o ho).1⟩
  · refine ⟨?_, ?_, ?_, ?_, ?_, ?_, ?_, ?_, ?_, ?_, us, ?_⟩
    · intro a b z
      rw [er] at z
      obtain ⟨z1, z2, z3⟩ := L.rdL a b z
      exact ⟨lu _ z1, lu _ z2, (fits_congr kk).mpr z3⟩
    · intro a b z
      rw [ew] at z
      obtain ⟨z1, z2, z3⟩ := L.wrL a b z
      exact ⟨lu _ z1, lu _ z2, (fits_congr kk).mpr z3⟩
    · intro j hj x hx
      rcases hs j hj with z | z
      · exact lu _ (L.refsL j z x hx)
      · have base : x = r.client ∨ x ∈ r.consoles := by
          rcases rcServe_mem z with ⟨c, os, e, rfl⟩ | rfl | rfl | ⟨o, n, ho, rfl⟩ | ⟨a, b, f, rfl, pm, _⟩
          · simp only [RcI.refs, List.append_nil, List.cons_append, List.mem_cons,
              List.mem_append] at hx
            rcases hx with e' | e' | e'
            · exact .inl e'
            · exact .inr e'
            · right; rw [e]; exact e'
          · exact .inl (List.mem_singleton.mp hx)
          · exact .inl (List.mem_singleton.mp hx)
          · simp only [RcI.refs, List.mem_cons, List.not_mem_nil, or_false] at hx
            rcases hx with rfl | rfl
            · exact .inr ho
            · exact .inl rfl
          · simp only [RcI.refs, List.mem_cons, List.not_mem_nil, or_false] at hx
            rcases pairs_mem pm with ⟨e1, e2⟩ | ⟨e1, e2⟩ <;> rcases hx with rfl | rfl
            · exact .inl e1
            · exact .inr e2
            · exact .inr e2
            · exact .inl e1
        rcases base with e | e
        · rw [e]; exact cl.1
        · exact lu _ (kos x e).2
    · intro a b z
      rw [er] at z; rw [ew]
      exact (L.s1 a b z).imp id (sh _)
    · intro a b z
      rw [ew] at z; rw [er]
      exact (L.s2 a b z).imp id (sh _)
    · intro a b z
      rw [er]
      exact L.c2 a b (hp _ (nc2 a b) z)
    · intro a b z
      rw [er]
      exact L.a2 a b (hp _ (na2 a b) z)
    · intro a b z
      rw [er, ew, kk]
      rw [ps] at z
      rcases List.mem_append.mp z with z | z
      · obtain ⟨z1, z2, z3, z4, z5⟩ := L.pnd a b z
        exact ⟨z1, fun y => z2 (hp _ (nc1 a b) y), fun y => z3 (hp _ (nc2 a b) y),
          fun ka => ⟨fun y => (z4 ka).1 (hp _ (ndw a) y), fun y => (z4 ka).2 (hp _ (ndr a) y)⟩,
          fun y => sh _ (z5 y)⟩
      · have dd : ¬ ((σ a).live = true ∧ (σ b).live = true) := by
          rintro ⟨x1, x2⟩
          rcases pc a b z with e | e
          · exact nl (e ▸ x1)
          · exact nl (e ▸ x2)
        refine ⟨fun y => dd ⟨(L.wrL a b y).1, (L.wrL a b y).2.1⟩, fun y => ?_, fun y => ?_,
          fun ka => ⟨fun y => ?_, fun y => ?_⟩,
          fun y => absurd ⟨(L.rdL a b y).1, (L.rdL a b y).2.1⟩ dd⟩
        · have y := hp _ (nc1 a b) y
          exact dd ⟨L.refsL _ y a (by simp [RcI.refs]), L.refsL _ y b (by simp [RcI.refs])⟩
        · have y := hp _ (nc2 a b) y
          exact dd ⟨L.refsL _ y a (by simp [RcI.refs]), L.refsL _ y b (by simp [RcI.refs])⟩
        · have y := hp _ (ndw a) y
          rw [pk a b z ka] at y
          exact dead _ y (by simp [RcI.refs])
        · have y := hp _ (ndr a) y
          rw [pk a b z ka] at y
          exact dead _ y (by simp [RcI.refs])
    · intro t ht q a b eq z ka br
      rw [kk] at ka
      rw [ps]
      simp only [ew]
      rcases List.mem_append.mp ht with ht | ht
      · obtain ⟨w1, w2⟩ := L.single t ht q a b eq z ka br
        refine ⟨w1, fun b' hb' => ?_⟩
        rcases List.mem_append.mp hb' with y | y
        · exact w2 b' y
        · exact absurd (pk a b' y ka) (oldp t ht a b z).1
      · rw [List.mem_singleton] at ht; subst ht
        cases eq
        rw [nt] at z
        have ea := pk a b z ka
        refine ⟨fun o y => nl (ea ▸ (L.wrL a o y).1), fun b' hb' => ?_⟩
        rcases List.mem_append.mp hb' with y | y
        · exact absurd ea (olds a b' y).1
        · rw [ea] at z y
          exact pairs_single r br ncn b b' z y
    · intro t ht c hc
      rcases List.mem_append.mp ht with ht | ht
      · exact absurd ⟨t, ht, hc⟩ (nr c)
      · rw [List.mem_singleton] at ht; subst ht
        exact absurd hc (nre c)
    · intro t ht q eq
      rcases List.mem_append.mp ht with ht | ht
      · exact uu _ (L.tagsU t ht q eq)
      · rw [List.mem_singleton] at ht; subst ht
        cases eq
        exact cl.2

/-! ### Histories -/

/-- The threads with their requests. -/
def RcSys.view (s : RcSys) : List RcT :=
  ⟨none, s.main.map RcI.strip⟩ :: s.ths.map fun t => ⟨some t.req, t.todo.map RcI.strip⟩

def RcSys.good (s : RcSys) : Prop := RcInv s.σ s.view

theorem strip_refs (i : RcI) : i.strip.refs = i.refs := by cases i <;> rfl

theorem strip_toggle {i : RcI} {c f} : i = .toggle c f ↔ i.strip = .toggle c f := by
  cases i <;> simp [RcI.strip]

theorem strip_retire {i : RcI} {c} : i = .retire c ↔ i.strip = .retire c := by
  cases i <;> simp [RcI.strip]

/-- A thread that goes on. -/
theorem RcInv.go {σ : RcStore} {A B : List RcT} {g} {i : RcI} {k : List RcI}
    (h : RcInv σ (A ++ ⟨g, i.strip :: k⟩ :: B)) :
    ∃ σ' push, rcStep σ i = some (σ', push) ∧
      RcInv σ' (A ++ ⟨g, push.map RcI.strip ++ k⟩ :: B) := by
  have nt : ∀ c f, i ≠ .toggle c f := by
    intro c f e
    have := h.shape.typ _ (has_head (A := A) (B := B))
    rw [strip_toggle.mp e] at this
    exact this
  have lv : ∀ x ∈ i.refs, (σ x).live = true := by
    intro x hx
    refine h.links.refsL _ (has_head (A := A) (B := B)) x ?_
    rw [strip_refs]; exact hx
  obtain ⟨⟨σ', push⟩, e⟩ := rcStep_some lv nt
  exact ⟨σ', push, e, h.step (rcStep_astep e nt)⟩

theorem good_start {σ : RcStore} (h : RcStart σ) : RcSys.good ⟨σ, [], []⟩ := by
  refine RcInv.ofEmpty ?_ ⟨[], [], rfl, ?_⟩ ?_ h.sym ?_ ?_ ?_
  · intro t ht; rw [List.mem_singleton.mp ht]; rfl
  · intro t ht; cases ht
  · intro t ht r er; rw [List.mem_singleton.mp ht] at er; cases er
  · intro a b hb
    obtain ⟨h1, h2, h3⟩ := h.fits a b hb
    exact ⟨h2, h3, h1⟩
  · exact fun a => ⟨h.live a, h.pub a⟩
  · intro t ht r er; rw [List.mem_singleton.mp ht] at er; cases er

theorem view_set {ths : List RcTh} {n : Nat} {t : RcTh} (e : ths[n]? = some t) :
    ∃ l1 l2, ths = l1 ++ t :: l2 ∧ l1.length = n := by
  obtain ⟨hn, e⟩ := List.getElem?_eq_some_iff.mp e
  refine ⟨ths.take n, ths.drop (n + 1), ?_, ?_⟩
  · rw [← e, List.getElem_cons_drop, List.take_append_drop]
  · rw [List.length_take]; omega

theorem good_step {s : RcSys} {ev : RcEv} (h : s.good)
    (c : rcCalm s.serving s.closing ev) : ∃ s', s.step ev = some s' ∧ s'.good := by
  cases ev with
  | start r dn =>
    simp only [RcSys.step]
    split
    · rename_i po
      refine ⟨_, rfl, ?_⟩
      have := RcInv.start (dn := dn) h po ?_ ?_
      · simp only [RcSys.good, RcSys.view, List.map_append, List.map_cons, List.map_nil,
          rcServe_strip]
        exact this
      · rintro d ⟨t, ht, hd⟩
        have tg := (h.shape.retire t ht d hd).1
        have e : t = ⟨none, s.main.map RcI.strip⟩ := by
          rcases List.mem_cons.mp ht with e | ht
          · exact e
          · obtain ⟨t', _, rfl⟩ := List.mem_map.mp ht; cases tg
        subst e
        obtain ⟨j, hj, ej⟩ := List.mem_map.mp hd
        have ej := strip_retire.mpr ej
        subst ej
        have : s.closing = true := List.any_eq_true.mpr ⟨_, hj, rfl⟩
        rw [c.1] at this; cases this
      · intro t ht q eq ne
        rcases List.mem_cons.mp ht with e | ht
        · subst e; cases eq
        · obtain ⟨t', ht', rfl⟩ := List.mem_map.mp ht
          cases eq
          apply c.2
          rw [RcSys.serving, List.mem_map]
          refine ⟨t', List.mem_filter.mpr ⟨ht', ?_⟩, rfl⟩
          cases e : t'.todo with
          | nil => rw [e] at ne; exact absurd rfl ne
          | cons => rfl
    · exact ⟨_, rfl, h⟩
  | act a =>
    simp only [RcSys.step]
    split
    · rename_i ca
      obtain ⟨m0, ca⟩ := ca
      refine ⟨_, rfl, ?_⟩
      have h' : RcInv s.σ (⟨none, []⟩ :: s.ths.map fun t => ⟨some t.req, t.todo.map RcI.strip⟩) := by
        have := h
        simp only [RcSys.good, RcSys.view, m0, List.map_nil] at this
        exact this
      have us := h.links.used
      simp only [RcSys.good, RcSys.view]
      cases a with
      | feed x =>
        have lx : (s.σ x).live = true := by
          rcases ca with e | e
          · exact (us x).2 e
          · exact e.2
        refine h'.load ?_ ?_ (.inl ?_)
        · intro j hj; rw [List.mem_singleton.mp hj]; trivial
        · intro j hj y hy
          rw [List.mem_singleton.mp hj] at hy
          rw [List.mem_singleton.mp hy]; exact lx
        · intro j hj; rw [List.mem_singleton.mp hj]; rfl
      | notice o =>
        have q := harmless_strip (harmless_notify (l := fun x => (s.σ x).live = true) ca.2)
        refine h'.load ?_ (fun j hj => (q j hj).2) (.inl fun j hj => (q j hj).1)
        intro j hj
        exact (benign_push q s.σ).1 j hj
      | close d =>
        have ld : (s.σ d).live = true := (us d).2 ca.2
        have em : ∀ t ∈ s.ths, t.todo = [] := by
          intro t ht
          have c : s.serving = [] := c
          rw [RcSys.serving, List.map_eq_nil_iff, List.filter_eq_nil_iff] at c
          have := c t ht
          cases e : t.todo with
          | nil => rfl
          | cons => rw [e] at this; simp at this
        refine h'.load ?_ ?_ (.inr ⟨⟨d, rfl⟩, ?_⟩)
        · intro j hj
          simp only [rcActs, List.map_cons, List.map_nil, RcI.strip, List.mem_cons,
            List.not_mem_nil, or_false] at hj
          rcases hj with rfl | rfl | rfl | rfl
          · trivial
          · exact ca.1
          · exact ca.1
          · exact ca.1
        · intro j hj y hy
          simp only [rcActs, List.map_cons, List.map_nil, RcI.strip, List.mem_cons,
            List.not_mem_nil, or_false] at hj
          rcases hj with rfl | rfl | rfl | rfl <;> rw [List.mem_singleton.mp hy] <;> exact ld
        · intro t ht
          obtain ⟨t', ht', rfl⟩ := List.mem_map.mp ht
          dsimp only
          rw [em t' ht']; rfl
      | toggle d f => exact absurd c id
    · exact ⟨_, rfl, h⟩
  | main =>
    simp only [RcSys.step]
    split
    · exact ⟨_, rfl, h⟩
    · rename_i i k e
      have h' := h
      simp only [RcSys.good, RcSys.view, e, List.map_cons] at h'
      obtain ⟨σ', push, e1, e2⟩ := RcInv.go (A := []) h'
      rw [e1]
      refine ⟨_, rfl, ?_⟩
      simp only [RcSys.good, RcSys.view, List.map_append, List.map_map,
        Function.comp_def, strip_adj]
      exact e2
  | run n =>
    simp only [RcSys.step]
    split
    · exact ⟨_, rfl, h⟩
    · rename_i t et
      split
      · exact ⟨_, rfl, h⟩
      · rename_i i k e
        obtain ⟨l1, l2, el, ln⟩ := view_set et
        have h' := h
        simp only [RcSys.good, RcSys.view, el, List.map_append, List.map_cons, e] at h'
        rw [← List.cons_append] at h'
        obtain ⟨σ', push, e1, e2⟩ := RcInv.go h'
        rw [e1]
        refine ⟨_, rfl, ?_⟩
        have es : ((s.ths.map fun t : RcTh => { t with todo := t.todo.map (rcAdj s.σ i) }).set n
            { t with todo := push ++ k.map (rcAdj s.σ i) }) =
            (l1.map fun t : RcTh => { t with todo := t.todo.map (rcAdj s.σ i) }) ++
            { t with todo := push ++ k.map (rcAdj s.σ i) } ::
            (l2.map fun t : RcTh => { t with todo := t.todo.map (rcAdj s.σ i) }) := by
          rw [el, List.map_append, List.map_cons, List.set_append_right _ _ (by simp [ln])]
          simp [ln]
        simp only [RcSys.good, RcSys.view]
        rw [es]
        simp only [List.map_append, List.map_cons, List.map_map, Function.comp_def, strip_adj]
        exact e2

theorem good_run {s : RcSys} {evs : List RcEv} (h : s.good) (c : s.calm evs) :
    ∃ s', s.run evs = some s' ∧ s'.good := by
  induction evs generalizing s with
  | nil => exact ⟨s, rfl, h⟩
  | cons ev evs ih =>
    obtain ⟨s1, e1, g1⟩ := good_step h c.1
    obtain ⟨s2, e2, g2⟩ := ih g1 (c.2 s1 e1)
    exact ⟨s2, by rw [RcSys.run, e1]; exact e2, g2⟩

end Conman
