import Verif.Lemma.WorldInput
import Verif.Props.Order
import Verif.Props.Links

/-
Input of a console over a history: helper lemmas for C91.
-/
namespace Conman
open Spec

/-- Nothing is made up, and bytes keep their order, whatever happens. -/
theorem input_sub {env : Env} (k : Nat) (ss : List Step) : ∀ {w w' : World}, FInv w → w.run env ss = some w' →
    k ∈ w.live → (w.obj k).kind.isConsole = true →
    (∀ i up d wr, .poll i up (some (.data d)) wr ∈ ss → d.length ≤ 8191) →
    ∃ x, sentTo k w'.fx = sentTo k w.fx ++ x ∧ (x ++ (w'.obj k).pend).Sublist ((w.obj k).pend ++ typedAll env w k ss) := by
  induction ss with
  | nil =>
    intro w w' _ hr _ _ _
    simp only [World.run, Option.some.injEq] at hr; subst hr
    exact ⟨[], by simp, by simp [typedAll]⟩
  | cons s ss ih =>
    intro w w' h hr hl hk hlen
    simp only [World.run, Option.bind_eq_some_iff] at hr
    obtain ⟨w1, h1, h2⟩ := hr
    have h3 := (h.step s h1).tick (w1.tick + 1)
    obtain ⟨l1, l2, l3⟩ := step_live h.e.d s h1
    have hl1 : k ∈ w1.live := (l2 k hl).resolve_right (fun g => not_client_of_console hk g.2)
    obtain ⟨x, x1, x2, _⟩ := input_step h s h1 k hl hk (fun i up d wr e => hlen i up d wr (by simp [e]))
    obtain ⟨y, y1, y2⟩ := ih (w := { w1 with tick := w1.tick + 1 }) h3 h2 hl1 (by show (w1.obj k).kind.isConsole = true; rw [l3 k hl]; exact hk)
      (fun i up d wr hm => hlen i up d wr (by simp [hm]))
    have e : typedAll env w k (s :: ss) = typed w k s ++ typedAll env { w1 with tick := w1.tick + 1 } k ss := by
      rw [typedAll, h1]
    rw [e]
    refine ⟨x ++ y, by rw [y1, ← List.append_assoc]; show sentTo k w1.fx ++ y = _; rw [x1], ?_⟩
    rw [List.append_assoc, ← List.append_assoc (w.obj k).pend]
    refine (List.Sublist.append_left y2 x).trans ?_
    rw [← List.append_assoc]
    exact List.Sublist.append_right x2 _

/-- Without overflow, end of file or shutdown, nothing is lost. -/
theorem input_run {env : Env} (k : Nat) (ss : List Step) : ∀ {w w' : World}, FInv w → w.run env ss = some w' →
    k ∈ w.live → (w.obj k).kind.isConsole = true →
    (∀ i up d wr, .poll i up (some (.data d)) wr ∈ ss → d.length ≤ 8191) →
    typedFits env w k ss = true → (w'.obj k).gen = (w.obj k).gen → (w'.obj k).eof = false →
    sentTo k w'.fx ++ (w'.obj k).pend = sentTo k w.fx ++ (w.obj k).pend ++ typedAll env w k ss := by
  induction ss with
  | nil =>
    intro w w' _ hr _ _ _ _ _ _
    simp only [World.run, Option.some.injEq] at hr; subst hr
    simp [typedAll]
  | cons s ss ih =>
    intro w w' h hr hl hk hlen hfit hg he
    have he0 : (w.obj k).eof = false := by
      cases q : (w.obj k).eof with
      | false => rfl
      | true =>
        have := (eof_run k (s :: ss) h hl q hr hg).1
        rw [he] at this; simp at this
    simp only [World.run, Option.bind_eq_some_iff] at hr
    obtain ⟨w1, h1, h2⟩ := hr
    have h3 := (h.step s h1).tick (w1.tick + 1)
    obtain ⟨l1, l2, l3⟩ := step_live h.e.d s h1
    have hl1 : k ∈ w1.live := (l2 k hl).resolve_right (fun g => not_client_of_console hk g.2)
    have hg1 : (w1.obj k).gen = (w.obj k).gen := by
      have a := step_mono h s h1 k
      have b : (w1.obj k).gen ≤ (w'.obj k).gen := run_mono (w := { w1 with tick := w1.tick + 1 }) k ss h3 h2
      omega
    obtain ⟨x, x1, _, x3⟩ := input_step h s h1 k hl hk (fun i up d wr e => hlen i up d wr (by simp [e]))
    unfold typedFits at hfit
    rw [h1, Bool.and_eq_true, decide_eq_true_eq] at hfit
    have x4 := x3 hg1 he0
    rw [lastN_self _ _ (by rw [List.length_append]; exact hfit.1)] at x4
    have := ih (w := { w1 with tick := w1.tick + 1 }) h3 h2 hl1 (by show (w1.obj k).kind.isConsole = true; rw [l3 k hl]; exact hk)
      (fun i up d wr hm => hlen i up d wr (by simp [hm])) hfit.2 (by rw [hg]; exact hg1.symm) he
    have e : typedAll env w k (s :: ss) = typed w k s ++ typedAll env { w1 with tick := w1.tick + 1 } k ss := by
      rw [typedAll, h1]
    rw [this, e]
    show sentTo k w1.fx ++ (w1.obj k).pend ++ _ = _
    rw [x1, List.append_assoc (sentTo k w.fx) x, x4, List.append_assoc, List.append_assoc, List.append_assoc]

theorem inert_cmdsInput (o : Obj) (own wr : Bool) (as : List UInt8) (h : as.all inert = true) : cmdsInput o own wr as = ([], wr) := by
  induction as with
  | nil => rfl
  | cons a as ih =>
    rw [List.all_cons, Bool.and_eq_true] at h
    have h1 := h.1
    unfold inert at h1
    simp only [Bool.not_eq_true', Bool.or_eq_false_iff, decide_eq_false_iff_not] at h1
    unfold cmdsInput
    rw [h1.2, Bool.false_and, if_neg Bool.false_ne_true, ih h.2]
    unfold cmdInput
    rw [if_neg h1.1.2, if_neg h1.1.1]
    split <;> rfl

theorem inert_modeAfter (m : Bool) (as : List UInt8) (h : as.all inert = true) : modeAfter m as = m := by
  induction as generalizing m with
  | nil => rfl
  | cons a as ih =>
    rw [List.all_cons, Bool.and_eq_true] at h
    have h1 := h.1
    unfold inert modeSwitch at h1
    simp only [Bool.not_eq_true', Bool.or_eq_false_iff, decide_eq_false_iff_not] at h1
    unfold modeAfter at ih ⊢
    rw [List.foldl_cons]
    have hz : isSwitch a = false := by simp [isSwitch, h1]
    rw [hz, if_neg Bool.false_ne_true]
    exact ih m h.2

theorem inert_noSwitch (as : List UInt8) (h : as.all inert = true) : as.any isSwitch = false := by
  rw [List.any_eq_false]
  intro a ha
  have h1 := List.all_eq_true.1 h a ha
  unfold inert modeSwitch at h1
  simp only [Bool.not_eq_true', Bool.or_eq_false_iff, decide_eq_false_iff_not] at h1
  simp [isSwitch, h1]

/-- A client that stays and gives no command that matters for it keeps writing to its console. -/
theorem keeps_writing {env : Env} {w w' : World} (h : FInv w) (s : Step) (hs : w.step env s = some w') (c k : Nat)
    (hl : c ∈ w.live) (hk : (w.obj c).kind = .client) (hlen : (readFrom c s).length ≤ 8191) (hl' : c ∈ w'.live)
    (he' : (w'.obj c).eof = false) (hng : noGrant c s = true)
    (hcmd : (wireCommands (w.obj c).gotEscape (readFrom c s)).all inert = true) (hr : k ∈ (w.obj c).readers) :
    k ∈ (w'.obj c).readers ∧ (w'.obj c).gotEscape = wireEsc (w.obj c).gotEscape (readFrom c s) ∧ (w'.obj c).kind = .client ∧
      (w.obj c).eof = false := by
  obtain ⟨m1, m2, m3⟩ := step_mode h.e s hs c hl hk hlen hl'
  have m := m3 he'
  refine ⟨?_, by rw [wireEsc_eq]; exact m.esc, m1, ?_⟩
  · cases hb : (w.obj c).bcast with
    | true => rw [m.bc hb]; exact hr
    | false =>
      have md := m.mode hb
      rw [(unescRef_wire _ _).2, inert_modeAfter _ _ hcmd] at md
      have ne : (w'.obj c).readers ≠ [] := by
        have : decide ((w.obj c).readers ≠ []) = true := by
          rw [decide_eq_true_eq]; intro g; rw [g] at hr; simp at hr
        rw [this] at md
        exact of_decide_eq_true md
      have sh := (h.step s hs).e.d.inv.cs c (by simp) m1
      rcases sh.2 (by rw [m.bcast]; exact hb) with g | ⟨con, g1, g2 | g2⟩
      · exact absurd g.1 ne
      · exact absurd g2 ne
      have hin : con ∈ (w'.obj c).readers := by rw [g2]; simp
      have old : con ∈ (w.obj c).readers := by
        rcases (step_links h.e.d s hs).2 c con hin with q | q
        · exact q
        rcases q with ⟨c', n, q, hs', hq, h2⟩ | ⟨up, d, wr, hs', _, hw, hc⟩
        · rcases h2 with ⟨rfl, h3, h4⟩ | ⟨rfl, h3⟩
          · rw [hs'] at hng; simp [noGrant] at hng
          · subst hs'
            have kc : (w'.obj con).kind.isConsole = true := by
              rcases (h.step _ hs).e.d.inv.l.kinds c con hin with z | z
              · exact z.2
              · rw [m1] at z; simp [OKind.isConsole] at z
            simp only [World.step, hq, Option.some.injEq] at hs
            by_cases hcl : con ∈ w.live
            · rw [if_pos hcl] at hs; subst hs; exact hin
            · exfalso
              rw [if_neg hcl] at hs
              obtain ⟨hsh, hok⟩ := h.e.d.wait q (List.mem_of_getElem? hq)
              have kk := grant_own ((h.e.d.unwait (w.wait.eraseIdx n) (fun q hq => List.mem_of_mem_eraseIdx hq)).inv) env con q hcl hok
              rw [← hs, kk.kind, newClient_obj, if_pos rfl] at kc
              simp [OKind.isConsole] at kc
        · exfalso
          subst hs'
          have hd : d.length ≤ 8191 := by simpa [readFrom] using hlen
          have e1 : readFrom c (.poll c up (some (.data d)) wr) = d := by simp [readFrom]
          rw [e1] at hcmd
          rw [cmdsOf_wire _ _ hd, inert_noSwitch _ hcmd] at hc
          simp at hc
      rcases (h.e.d.inv.cs c (by simp) hk).2 hb with z | ⟨con', z1, z2 | z2⟩
      · rw [z.1] at hr; simp at hr
      · rw [z2] at hr; simp at hr
      · rw [z2] at hr old
        simp only [List.mem_singleton] at hr old
        rw [g2, old, hr]; simp
  · cases q : (w.obj c).eof with
    | false => rfl
    | true => rw [m2 q] at he'; simp at he'

theorem wireText_plain (t : List UInt8) : wireData false (wireText t) = t ∧ wireCommands false (wireText t) = [] := by
  induction t with
  | nil => exact ⟨rfl, rfl⟩
  | cons b t ih =>
    unfold wireText at ih ⊢
    rw [List.flatMap_cons]
    unfold iacDouble at ih ⊢
    by_cases hb : b = 255
    · subst hb
      rw [if_pos rfl]
      simp [wireData, wireCommands, ih.1, ih.2]
    · rw [if_neg hb]
      simp [wireData, wireCommands, ih.1, ih.2, hb]

/-- What a client without such commands types is, in order, among the input of its console; nothing else is if nobody else types. -/
theorem text_run {env : Env} (c k : Nat) (ss : List Step) : ∀ {w w' : World}, FInv w → w.run env ss = some w' →
    c ∈ w.live → (w.obj c).kind = .client → k ∈ (w.obj c).readers → ss.all (noGrant c) = true →
    (∀ i up d wr, .poll i up (some (.data d)) wr ∈ ss → d.length ≤ 8191) →
    (wireCommands (w.obj c).gotEscape (ss.flatMap (readFrom c))).all inert = true → c ∈ w'.live → (w'.obj c).eof = false →
    (wireData (w.obj c).gotEscape (ss.flatMap (readFrom c))).Sublist (typedAll env w k ss) ∧
    (k ∈ w.live → (w.obj k).kind ≠ .telnet →
      (∀ i up d wr, .poll i up (some (.data d)) wr ∈ ss → i = c ∨ i ∈ w.live ∧ (w.obj i).kind ≠ .client) →
      typedAll env w k ss = wireData (w.obj c).gotEscape (ss.flatMap (readFrom c))) := by
  induction ss with
  | nil =>
    intro w w' _ _ _ _ _ _ _ _ _ _
    simp [typedAll, wireData]
  | cons s ss ih =>
    intro w w' h hr hl hk hrd hng hlen hcmd hl' he'
    simp only [World.run, Option.bind_eq_some_iff] at hr
    obtain ⟨w1, h1, h2⟩ := hr
    simp only [List.all_cons, Bool.and_eq_true] at hng
    have h3 := (h.step s h1).tick (w1.tick + 1)
    have hl1 : c ∈ w1.live := by
      by_cases g : c ∈ w1.live
      · exact g
      · exact absurd hl' (run_gone (w := { w1 with tick := w1.tick + 1 }) c ss h3.e h2 hng.2 g)
    have hrl : ∀ t ∈ s :: ss, (readFrom c t).length ≤ 8191 := by
      intro t ht
      unfold readFrom
      split
      · split
        · exact hlen _ _ _ _ ht
        · simp
      · simp
    have hsm := step_mode h.e s h1 c hl hk (hrl s List.mem_cons_self) hl1
    have he1 : (w1.obj c).eof = false := by
      cases hh : (w1.obj c).eof with
      | false => rfl
      | true =>
        have := (run_mode (w := { w1 with tick := w1.tick + 1 }) c ss h3.e h2 hng.2
          (fun t ht => hrl t (List.mem_cons_of_mem _ ht)) hl1 hsm.1 hl').2.1 hh
        rw [this] at he'; simp at he'
    rw [List.flatMap_cons, wireCommands_append, List.all_append, Bool.and_eq_true] at hcmd
    obtain ⟨hc1, hc2⟩ := hcmd
    obtain ⟨r1, r2, r3, r4⟩ := keeps_writing h s h1 c k hl hk (hrl s List.mem_cons_self) hl1 he1 hng.1 hc1 hrd
    have e : typedAll env w k (s :: ss) = typed w k s ++ typedAll env { w1 with tick := w1.tick + 1 } k ss := by
      rw [typedAll, h1]
    have ci := h.e.cl c hl hk
    rw [e, List.flatMap_cons, wireData_append]
    rw [← r2] at hc2 ⊢
    obtain ⟨i1, i2⟩ := ih (w := { w1 with tick := w1.tick + 1 }) h3 h2 hl1 r3 r1 hng.2 (fun i up d wr hm => hlen i up d wr (by simp [hm])) hc2 hl' he'
    have piece : ∀ up d wr, s = .poll c up (some (.data d)) wr → typed w k s = wireData (w.obj c).gotEscape (readFrom c s) := by
      rintro up d wr rfl
      have e1 : readFrom c (.poll c up (some (.data d)) wr) = d := by simp [readFrom]
      rw [e1] at hc1 ⊢
      unfold typed
      dsimp only
      rw [if_pos ⟨hl, Or.inl (ci.pin r4)⟩, if_pos hk, inert_cmdsInput _ _ _ _ hc1]
      have : (w.obj c).readers.contains k = true := by simpa using hrd
      rw [this]
      simp
    have none' : (∀ up d wr, s ≠ .poll c up (some (.data d)) wr) → readFrom c s = [] := by
      intro hn
      unfold readFrom
      split
      · split
        · rename_i g; subst g; exact absurd rfl (hn _ _ _)
        · rfl
      · rfl
    by_cases hp : ∃ up d wr, s = .poll c up (some (.data d)) wr
    · obtain ⟨up, d, wr, hp⟩ := hp
      rw [← piece up d wr hp]
      refine ⟨List.Sublist.append_left i1 _, fun hkl hkt hon => ?_⟩
      obtain ⟨l1, l2, l3⟩ := step_live h.e.d s h1
      have hkl1 : k ∈ w1.live := by
        rcases l2 k hkl with g | g
        · exact g
        · exfalso
          subst hp
          simp only [Step.target, Option.some.injEq] at g
          rcases h.e.d.inv.l.kinds c k hrd with z | z
          · have := z.2; rw [g.2] at this; simp [OKind.isConsole] at this
          · have := z.1; rw [hk] at this; simp [OKind.isConsole] at this
      rw [i2 hkl1 (by show (w1.obj k).kind ≠ _; rw [l3 k hkl]; exact hkt) ?_]
      intro i up d wr hm
      rcases hon i up d wr (by simp [hm]) with g | g
      · exact Or.inl g
      · have : i ∈ w1.live := (l2 i g.1).resolve_right (fun z => g.2 z.2)
        exact Or.inr ⟨this, by show (w1.obj i).kind ≠ _; rw [l3 i g.1]; exact g.2⟩
    · have hn : readFrom c s = [] := none' (fun up d wr g => hp ⟨up, d, wr, g⟩)
      have w0 : wireData (w.obj c).gotEscape (readFrom c s) = [] := by rw [hn]; rfl
      rw [w0, List.nil_append]
      refine ⟨i1.trans (List.sublist_append_right _ _), fun hkl hkt hon => ?_⟩
      obtain ⟨l1, l2, l3⟩ := step_live h.e.d s h1
      have hkc : (w.obj k).kind.isConsole = true := by
        rcases h.e.d.inv.l.kinds c k hrd with z | z
        · exact z.2
        · have := z.1; rw [hk] at this; simp [OKind.isConsole] at this
      have hkl1 : k ∈ w1.live := (l2 k hkl).resolve_right (fun z => not_client_of_console hkc z.2)
      have t0 : typed w k s = [] := by
        cases s with
        | poll i up rd wr =>
          cases rd with
          | none => rfl
          | some r =>
            cases r with
            | data d =>
              rcases hon i up d wr List.mem_cons_self with g | g
              · subst g; exact absurd ⟨up, d, wr, rfl⟩ hp
              · unfold typed
                dsimp only
                rw [if_neg g.2]
                split
                · rw [if_neg (fun z => hkt z.2.1)]
                · rfl
            | _ => rfl
        | connUp i => unfold typed; dsimp only; rw [if_neg (fun z => hkt z.2.2.1)]
        | _ => rfl
      rw [t0, List.nil_append, i2 hkl1 (by show (w1.obj k).kind ≠ _; rw [l3 k hkl]; exact hkt) ?_]
      intro i up d wr hm
      rcases hon i up d wr (by simp [hm]) with g | g
      · exact Or.inl g
      · have : i ∈ w1.live := (l2 i g.1).resolve_right (fun z => g.2 z.2)
        exact Or.inr ⟨this, by show (w1.obj i).kind ≠ _; rw [l3 i g.1]; exact g.2⟩

end Conman
