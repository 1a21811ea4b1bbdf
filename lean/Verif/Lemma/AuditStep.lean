import Verif.Lemma.Audit
import Verif.Lemma.Stop

namespace Conman
open Spec

/-- A new client. -/
theorem audit_new {env : Env} {w : World} {L : List Audit} (h : AInv w L) {c k : Nat} {q : Req} (hc : c ∉ w.live) (hq : w.wait[k]? = some q) {w' : World}
    (hs : w.step env (.grant c k) = some w') : AInv w' (L ++ w.audit w' (.grant c k)) := by
  have h' := world_step_inv h.d env _ hs
  obtain ⟨hl1, _, hl3⟩ := step_live h.d _ hs
  obtain ⟨hg1, hg⟩ := step_links h.d _ hs
  obtain ⟨hsh, hok⟩ := h.d.wait q (List.mem_of_getElem? hq)
  obtain ⟨a, ha, hwho, hends, hform⟩ := auditGrant_one (c := c) hsh
  have hau : w.audit w' (.grant c k) = [a] := by
    show (if c ∈ w.live then [] else (w.wait[k]?.map (auditGrant c)).getD []) = [a]
    rw [if_neg hc, hq]; exact ha
  have hw' : w' = ({ w with wait := w.wait.eraseIdx k } : World).grant env c q := by
    simp only [World.step, Option.some.injEq] at hs
    rw [hq] at hs
    dsimp only at hs
    rw [if_neg hc] at hs
    exact hs.symm
  have hd := h.d.unwait (w.wait.eraseIdx k) (fun q hq => List.mem_of_mem_eraseIdx hq)
  have hkp := (grant_inv hd.inv env c q hsh hc hok).2
  rw [← hw'] at hkp
  have hlive : ∀ j, j ∈ w'.live ↔ j ∈ w.live ∨ j = c := by
    intro j; rw [hkp.live]; show j ∈ w.live ++ [c] ↔ _; simp
  have hkc : (w'.obj c).kind = .client := by rw [hkp.kind, newClient_obj, if_pos rfl]
  have hbc' : q.bcast = (w'.obj c).bcast := by
    have := (grant_own hd.inv env c q hc hok).same
    rw [← hw'] at this
    rw [this.bcast, newClient_obj, if_pos rfl]
  have hnc : ¬ OnRecord c L := fun g => hc ((h.on c).mpr g).1
  have hnr : (w.obj c).readers = [] := List.eq_nil_iff_forall_not_mem.mpr fun x hx => hc (h.d.inv.l.live _ _ hx).1
  have hnw : ∀ x, c ∉ (w.obj x).readers := fun x hx => hc (h.d.inv.l.live _ _ hx).2
  have hrd : ∀ x ∈ (w'.obj c).readers, x ∈ q.consoles ∧ q.cmd = .connect := by
    intro x hx
    rcases hg c x hx with g | ⟨c', k', q', e, hq', g⟩ | ⟨_, _, _, e, _⟩
    · rw [hnr] at g; cases g
    · cases e
      rw [hq] at hq'; cases hq'
      rcases g with ⟨_, g⟩ | ⟨_, g⟩
      · exact g
      · exact absurd (hok.2 c g).1 hc
    · cases e
  have hwr : ∀ x ∈ (w'.obj c).writers, x ∈ q.consoles := by
    intro x hx
    rcases hg x c ((h'.inv.l.sym x c).mpr hx) with g | ⟨c', k', q', e, hq', g⟩ | ⟨_, _, _, e, _⟩
    · exact absurd g (hnw x)
    · cases e
      rw [hq] at hq'; cases hq'
      rcases g with ⟨_, g, _⟩ | ⟨_, g⟩
      · exact absurd (hok.2 c g).1 hc
      · exact g
    · cases e
  refine ⟨h', fun j => ?_, ?_, fun j b hj hk hb => ?_⟩
  · rw [hau, OnRecord.snoc, hwho]
    by_cases e : c = j
    · subst e; rw [if_pos rfl]
      exact ⟨fun _ => hends, fun _ => ⟨(hlive c).mpr (.inr rfl), hkc⟩⟩
    · rw [if_neg e, ← h.on j, hlive j]
      have e' : j ≠ c := fun g => e g.symm
      constructor
      · rintro ⟨g | g, gk⟩
        · exact ⟨g, by rw [← hl3 j g]; exact gk⟩
        · exact absurd g e'
      · rintro ⟨g, gk⟩
        exact ⟨.inl g, by rw [hl3 j g]; exact gk⟩
  · rw [hau]
    refine Regular.snoc h.reg a ?_
    rw [hends, hwho]
    exact ⟨fun g => (nomatch g), fun g => absurd g hnc⟩
  · rw [hau, lastOf_snoc, hwho] at hb
    by_cases e : c = j
    · subst e
      rw [if_pos rfl] at hb
      cases hb
      rcases hform with ⟨con, hcon, ⟨_, rfl⟩ | ⟨_, rfl⟩⟩ | ⟨hbc, hcm, rfl⟩
      · exact ⟨fun x hx => by simpa [hcon] using (hrd x hx).1, fun x hx => by simpa [hcon] using hwr x hx⟩
      · exact ⟨fun x hx => by simpa [hcon] using (hrd x hx).1, fun x hx => by simpa [hcon] using hwr x hx⟩
      · exact ⟨⟨q.consoles, rfl, fun x hx => (hrd x hx).1⟩, (h'.inv.cs c (by simp) hkc).1 (hbc' ▸ hbc)⟩
    · rw [if_neg e] at hb
      have hj0 : j ∈ w.live := ((hlive j).mp hj).resolve_right fun g => e g.symm
      have hk0 : (w.obj j).kind = .client := by rw [← hl3 j hj0]; exact hk
      exact cover_step h.d _ hs hj0 hk0 (h.cov j b hj0 hk0 hb)

/-- A client that is closed. -/
theorem audit_gone {env : Env} {w w' : World} {L : List Audit} (h : AInv w L) {i : Nat} {up : Bool} {rd : Option ReadRes} {wr : Option WriteRes}
    (hi : i ∈ w.live) (hki : (w.obj i).kind = .client) (hi' : i ∉ w'.live)
    (hs : w.step env (.poll i up rd wr) = some w') : AInv w' (L ++ w.audit w' (.poll i up rd wr)) := by
  have h' := world_step_inv h.d env _ hs
  obtain ⟨hl1, hl2, hl3⟩ := step_live h.d _ hs
  have hau : w.audit w' (.poll i up rd wr) = [.gone i] := by
    show (if i ∈ w.live ∧ (w.obj i).kind = .client ∧ i ∉ w'.live then [Audit.gone i] else []) = _
    rw [if_pos ⟨hi, hki, hi'⟩]
  have hlive : ∀ j, j ∈ w'.live ↔ j ∈ w.live ∧ j ≠ i := by
    intro j
    constructor
    · intro hj
      rcases hl1 j hj with g | ⟨_, _, e, _⟩
      · exact ⟨g, fun e => hi' (e ▸ hj)⟩
      · cases e
    · rintro ⟨hj, hne⟩
      rcases hl2 j hj with g | ⟨g, _⟩
      · exact g
      · simp only [Step.target, Option.some.injEq] at g
        exact absurd g.symm hne
  refine ⟨h', fun j => ?_, ?_, fun j b hj hk hb => ?_⟩
  · rw [hau, OnRecord.snoc]
    by_cases e : i = j
    · subst e; rw [if_pos (show (Audit.gone i).who = i from rfl)]
      exact ⟨fun g => absurd g.1 hi', fun g => (nomatch g)⟩
    · rw [if_neg (show ¬ (Audit.gone i).who = j from e), ← h.on j, hlive j]
      have e' : j ≠ i := fun g => e g.symm
      constructor
      · rintro ⟨⟨g, _⟩, gk⟩
        exact ⟨g, by rw [← hl3 j g]; exact gk⟩
      · rintro ⟨g, gk⟩
        exact ⟨⟨g, e'⟩, by rw [hl3 j g]; exact gk⟩
  · rw [hau]
    exact Regular.snoc h.reg _ ⟨fun _ => (h.on i).mp ⟨hi, hki⟩, fun _ => rfl⟩
  · obtain ⟨hj0, hne⟩ := (hlive j).mp hj
    rw [hau, lastOf_snoc, if_neg (show ¬ (Audit.gone i).who = j from fun g => hne g.symm)] at hb
    have hk0 : (w.obj j).kind = .client := by rw [← hl3 j hj0]; exact hk
    exact cover_step h.d _ hs hj0 hk0 (h.cov j b hj0 hk0 hb)

theorem audit_step {env : Env} {w w' : World} {L : List Audit} (h : AInv w L) (s : Step) (hs : w.step env s = some w') : AInv w' (L ++ w.audit w' s) := by
  by_cases hnew : ∃ c k q, s = .grant c k ∧ c ∉ w.live ∧ w.wait[k]? = some q
  · obtain ⟨c, k, q, rfl, hc, hq⟩ := hnew
    exact audit_new h hc hq hs
  by_cases hgone : ∃ i up rd wr, s = .poll i up rd wr ∧ i ∈ w.live ∧ (w.obj i).kind = .client ∧ i ∉ w'.live
  · obtain ⟨i, up, rd, wr, rfl, hi, hk, hi'⟩ := hgone
    exact audit_gone h hi hk hi' hs
  have hau : w.audit w' s = [] := by
    cases s with
    | grant c k =>
      show (if c ∈ w.live then [] else (w.wait[k]?.map (auditGrant c)).getD []) = []
      by_cases hc : c ∈ w.live
      · rw [if_pos hc]
      · rw [if_neg hc]
        cases hq : w.wait[k]? with
        | none => rfl
        | some q => exact absurd ⟨c, k, q, rfl, hc, hq⟩ hnew
    | poll i up rd wr =>
      show (if i ∈ w.live ∧ (w.obj i).kind = .client ∧ i ∉ w'.live then [Audit.gone i] else []) = _
      rw [if_neg fun g => hgone ⟨i, up, rd, wr, rfl, g⟩]
    | _ => rfl
  obtain ⟨hl1, hl2, hl3⟩ := step_live h.d _ hs
  have hold : ∀ j, j ∈ w'.live → j ∈ w.live := by
    intro j hj
    rcases hl1 j hj with g | ⟨k, q, e, hq, hn, _⟩
    · exact g
    · exact absurd ⟨j, k, q, e, hn, hq⟩ hnew
  have hkeep : ∀ j, j ∈ w.live → (w.obj j).kind = .client → j ∈ w'.live := by
    intro j hj hk
    by_cases hp : ∃ i up rd wr, s = .poll i up rd wr
    · obtain ⟨i, up, rd, wr, rfl⟩ := hp
      rcases hl2 j hj with g | ⟨g, _⟩
      · exact g
      · simp only [Step.target, Option.some.injEq] at g
        subst g
        exact Decidable.byContradiction fun hn => hgone ⟨_, up, rd, wr, rfl, hj, hk, hn⟩
    · exact step_keeps h.d s hs (fun i up rd wr e => hp ⟨i, up, rd, wr, e⟩) hj
  rw [hau, List.append_nil]
  refine ⟨world_step_inv h.d env s hs, fun j => ?_, h.reg, fun j b hj hk hb => ?_⟩
  · rw [← h.on j]
    constructor
    · rintro ⟨g, gk⟩
      exact ⟨hold j g, by rw [← hl3 j (hold j g)]; exact gk⟩
    · rintro ⟨g, gk⟩
      exact ⟨hkeep j g gk, by rw [hl3 j g]; exact gk⟩
  · have hk0 : (w.obj j).kind = .client := by rw [← hl3 j (hold j hj)]; exact hk
    exact cover_step h.d _ hs (hold j hj) hk0 (h.cov j b (hold j hj) hk0 hb)

theorem AInv.tick {w : World} {L : List Audit} (h : AInv w L) (n : Nat) : AInv ({ w with tick := n } : World) L := ⟨h.d.tick n, h.on, h.reg, h.cov⟩

theorem audit_run {env : Env} : ∀ (ss : List Step) {w w' : World} {L : List Audit}, AInv w L → w.run env ss = some w' → AInv w' (L ++ w.audits env ss)
  | [], w, w', L, h, hr => by
    simp only [World.run, Option.some.injEq] at hr
    subst hr
    simpa [World.audits] using h
  | s :: ss, w, w', L, h, hr => by
    unfold World.run at hr
    unfold World.audits
    cases hs : w.step env s with
    | none => rw [hs] at hr; cases hr
    | some v =>
      rw [hs] at hr
      have := audit_run ss ((audit_step h s hs).tick (v.tick + 1)) hr
      rwa [List.append_assoc] at this

theorem audit_boot (cfg : List ConConf) (hcfg : ∀ c ∈ cfg, c.kind.isConsole = true) : AInv (World.boot cfg) [] := by
  refine ⟨boot_inv cfg hcfg, fun c => ⟨fun g => absurd g.2 (boot_not_client cfg hcfg c g.1), ?_⟩, Regular.nil, fun c a _ _ e => (nomatch e)⟩
  rintro ⟨a, e, _⟩
  cases e

/-! ### The end -/

theorem audit_end_list : ∀ (l : List Nat) {L : List Audit}, Regular L → l.Nodup → (∀ c ∈ l, OnRecord c L) →
    Regular (L ++ l.map Audit.gone) ∧ ∀ c, OnRecord c (L ++ l.map Audit.gone) ↔ OnRecord c L ∧ c ∉ l
  | [], L, h, _, _ => by simp [h]
  | a :: l, L, h, hn, ho => by
    have hr := Regular.snoc h (.gone a) ⟨fun _ => ho a (by simp), fun _ => rfl⟩
    have hna := (List.nodup_cons.mp hn).1
    have ho' : ∀ c ∈ l, OnRecord c (L ++ [Audit.gone a]) := by
      intro c hc
      rw [OnRecord.snoc, if_neg (show ¬ (Audit.gone a).who = c from fun e => hna (by rw [show a = c from e]; exact hc))]
      exact ho c (by simp [hc])
    obtain ⟨h1, h2⟩ := audit_end_list l hr (List.nodup_cons.mp hn).2 ho'
    have e : L ++ (a :: l).map Audit.gone = (L ++ [Audit.gone a]) ++ l.map Audit.gone := by simp
    rw [e]
    refine ⟨h1, fun c => ?_⟩
    rw [h2 c, OnRecord.snoc]
    by_cases hc : a = c
    · subst hc
      rw [if_pos (show (Audit.gone a).who = a from rfl)]
      exact ⟨fun g => (nomatch g.1), fun g => absurd (List.mem_cons_self ..) g.2⟩
    · rw [if_neg (show ¬ (Audit.gone a).who = c from hc)]
      have hc' : c ≠ a := fun g => hc g.symm
      simp [hc']

theorem bye_audit (o : Obj) (i : Nat) : (o.bye i).filterMap EndFx.audit = if o.kind = .client then [.gone i] else [] := by
  unfold Obj.bye
  cases hk : o.kind <;> by_cases hp : o.pend.length > 0 <;> by_cases hf : o.fd = true <;> simp only [hp, hf, if_true, if_false] <;> rfl

theorem auditEnd_eq (w : World) (p : Bool) (g : Option Nat) : w.auditEnd p g = (w.live.filter fun i => (w.obj i).kind = .client).map Audit.gone := by
  have key : ∀ l : List Nat, (l.flatMap (fun i => (w.obj i).bye i)).filterMap EndFx.audit =
      (l.filter fun i => (w.obj i).kind = .client).map Audit.gone := by
    intro l
    induction l with
    | nil => rfl
    | cons i l ih =>
      rw [List.flatMap_cons, List.filterMap_append, ih, bye_audit, List.filter_cons]
      by_cases h : (w.obj i).kind = .client <;> simp [h]
  unfold World.auditEnd World.stop
  rw [List.filterMap_append, List.filterMap_append, List.filterMap_append, key]
  have e1 : List.filterMap EndFx.audit [EndFx.listen] = [] := rfl
  have e2 : List.filterMap EndFx.audit [EndFx.pidFile] = [] := rfl
  have e3 : ∀ g, List.filterMap EndFx.audit [EndFx.term g] = [] := fun _ => rfl
  cases p <;> cases g <;> simp [e1, e2, e3]

/-! ### Modes -/

/-- A client that is new in a read-only session writes to nothing. -/
theorem new_readers {env : Env} {w w' : World} (h : DInv w) {c k : Nat} {q : Req} (hc : c ∉ w.live) (hq : w.wait[k]? = some q) (hm : q.cmd = .monitor)
    (hs : w.step env (.grant c k) = some w') : (w'.obj c).readers = [] := by
  refine List.eq_nil_iff_forall_not_mem.mpr fun x hx => ?_
  rcases (step_links h _ hs).2 c x hx with g | ⟨c', k', q', e, hq', g⟩ | ⟨_, _, _, e, _⟩
  · exact hc (h.inv.l.live _ _ g).1
  · cases e
    rw [hq] at hq'; cases hq'
    rcases g with ⟨_, _, g⟩ | ⟨_, g⟩
    · rw [hm] at g; cases g
    · exact hc (((h.wait q (List.mem_of_getElem? hq)).2).2 c g).1
  · cases e

theorem mode_step {env : Env} {w w' : World} {L : List Audit} {c : Nat} (h : AInv w L) (hm : OnRecordReadOnly c L → (w.obj c).readers = []) (s : Step) (hs : w.step env s = some w')
    (hn : ∀ up d wr, s = .poll c up (some (.data d)) wr → (cmdsOf (w.obj c) d).any isSwitch = false) :
    OnRecordReadOnly c (L ++ w.audit w' s) → (w'.obj c).readers = [] := by
  intro ⟨con, hr⟩
  have old : lastOf c L = some (.readOnly c con) → (w'.obj c).readers = [] := by
    intro hL
    have hl := (h.on c).mpr ⟨_, hL, rfl⟩
    have h0 := hm ⟨con, hL⟩
    by_cases ht : ∃ c' k, s = .grant c' k ∧ c' ∈ w.live
    · obtain ⟨c', k, rfl, hcl⟩ := ht
      rw [step_taken hs hcl]; exact h0
    refine List.eq_nil_iff_forall_not_mem.mpr fun x hx => ?_
    rcases (step_links h.d _ hs).2 c x hx with g | ⟨c', k', q', rfl, hq', g⟩ | ⟨up, d, wr, e, _, _, g⟩
    · rw [h0] at g; cases g
    · rcases g with ⟨rfl, _⟩ | ⟨_, g⟩
      · exact ht ⟨_, _, rfl, hl.1⟩
      · exact not_client_of_console (((h.d.wait _ (List.mem_of_getElem? hq')).2).2 c g).2 hl.2
    · rw [hn up d wr e] at g; cases g
  by_cases hnew : ∃ c' k q, s = .grant c' k ∧ c' ∉ w.live ∧ w.wait[k]? = some q
  · obtain ⟨c', k, q, rfl, hc, hq⟩ := hnew
    obtain ⟨hsh, hok⟩ := h.d.wait q (List.mem_of_getElem? hq)
    obtain ⟨a, ha, hwho, hends, hform⟩ := auditGrant_one (c := c') hsh
    have hau : w.audit w' (.grant c' k) = [a] := by
      show (if c' ∈ w.live then [] else (w.wait[k]?.map (auditGrant c')).getD []) = [a]
      rw [if_neg hc, hq]; exact ha
    rw [hau, lastOf_snoc, hwho] at hr
    by_cases e : c' = c
    · subst e
      rw [if_pos rfl] at hr
      cases hr
      rcases hform with ⟨_, _, ⟨hmm, _⟩ | ⟨_, g⟩⟩ | ⟨_, _, g⟩
      · exact new_readers h.d hc hq hmm hs
      · cases g
      · cases g
    · rw [if_neg e] at hr
      exact old hr
  · have hau : w.audit w' s = [] ∨ ∃ i, w.audit w' s = [.gone i] := by
      cases s with
      | grant c k =>
        left
        show (if c ∈ w.live then [] else (w.wait[k]?.map (auditGrant c)).getD []) = []
        by_cases hc : c ∈ w.live
        · rw [if_pos hc]
        · rw [if_neg hc]
          cases hq : w.wait[k]? with
          | none => rfl
          | some q => exact absurd ⟨c, k, q, rfl, hc, hq⟩ hnew
      | poll i up rd wr =>
        by_cases hg : i ∈ w.live ∧ (w.obj i).kind = .client ∧ i ∉ w'.live
        · right; exact ⟨i, if_pos hg⟩
        · left; exact if_neg hg
      | _ => exact .inl rfl
    rcases hau with e | ⟨i, e⟩
    · rw [e, List.append_nil] at hr; exact old hr
    · rw [e, lastOf_snoc] at hr
      by_cases hi : (Audit.gone i).who = c
      · rw [if_pos hi] at hr; cases hr
      · rw [if_neg hi] at hr; exact old hr

/-- In no read of the history is there a command of the client to switch its mode. -/
def NoSwitch (env : Env) (c : Nat) : World → List Step → Prop
  | _, [] => True
  | w, s :: ss =>
    (∀ up d wr, s = .poll c up (some (.data d)) wr → (cmdsOf (w.obj c) d).any isSwitch = false) ∧
    ∀ w', w.step env s = some w' → NoSwitch env c { w' with tick := w'.tick + 1 } ss

theorem mode_run {env : Env} {c : Nat} : ∀ (ss : List Step) {w w' : World} {L : List Audit}, AInv w L → (OnRecordReadOnly c L → (w.obj c).readers = []) →
    w.run env ss = some w' → NoSwitch env c w ss → OnRecordReadOnly c (L ++ w.audits env ss) → (w'.obj c).readers = []
  | [], w, w', L, h, hm, hr, _ => by
    simp only [World.run, Option.some.injEq] at hr
    subst hr
    simpa [World.audits] using hm
  | s :: ss, w, w', L, h, hm, hr, hn => by
    unfold World.run at hr
    unfold World.audits
    cases hs : w.step env s with
    | none => rw [hs] at hr; cases hr
    | some v =>
      rw [hs] at hr
      have := mode_run ss ((audit_step h s hs).tick (v.tick + 1)) (mode_step h hm s hs hn.1) hr (hn.2 v hs)
      rwa [List.append_assoc] at this

end Conman
