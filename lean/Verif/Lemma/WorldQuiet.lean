import Verif.Lemma.WorldFeed

/-
Quiet clients: their waiting bytes are console data only.
-/
namespace Conman
open Spec

theorem Passive.quiet {o o' : Obj} (h : Passive env o o') : o.kind = .client → o.quiet = true →
    o'.kind = .client ∧ o'.quiet = true ∧ o'.pend = o.pend := by
  induction h with
  | refl => exact fun a b => ⟨a, b, rfl⟩
  | trans _ _ h1 h2 =>
    intro a b
    obtain ⟨a1, b1, c1⟩ := h1 a b
    obtain ⟨a2, b2, c2⟩ := h2 a1 b1
    exact ⟨a2, b2, by rw [c2, c1]⟩
  | info o n t _ => intro a b; rw [o.write_of_quiet (env.txt n t) a b]; exact ⟨a, b, rfl⟩
  | links => exact fun a b => ⟨a, b, rfl⟩
  | orphan => exact fun a b => ⟨a, b, rfl⟩

theorem Ext.quiet {o o' : Obj} {b : Bool} (h : Ext env b o o') : b = false → o.kind = .client → o.quiet = true →
    o'.kind = .client ∧ o'.quiet = true ∧ o'.pend = o.pend := by
  induction h with
  | refl => exact fun _ a b => ⟨a, b, rfl⟩
  | trans _ _ h1 h2 =>
    intro hb a b
    obtain ⟨a1, b1, c1⟩ := h1 hb a b
    obtain ⟨a2, b2, c2⟩ := h2 hb a1 b1
    exact ⟨a2, b2, by rw [c2, c1]⟩
  | pass p => exact fun _ => p.quiet
  | reset => exact fun _ a b => ⟨a, b, rfl⟩
  | data o d h => intro hb; rw [h] at hb; simp at hb
  | log o _ _ hk => intro hb; rw [hk] at hb; simp at hb

theorem COwn.quietStays {o o' : Obj} {b p : Bool} (h : COwn env b p o o') : b = false → p = false → o.kind = .client → o.quiet = true →
    o'.kind = .client ∧ o'.quiet = true ∧ o'.pend = o.pend := by
  induction h with
  | refl => exact fun _ _ a b => ⟨a, b, rfl⟩
  | trans _ _ h1 h2 =>
    intro hb hp a b
    obtain ⟨a1, b1, c1⟩ := h1 hb hp a b
    obtain ⟨a2, b2, c2⟩ := h2 hb hp a1 b1
    exact ⟨a2, b2, by rw [c2, c1]⟩
  | pass p => exact fun _ _ => p.quiet
  | data o d h => intro hb; rw [h] at hb; simp at hb
  | quiet o d h => intro hb; rw [h] at hb; simp at hb
  | flags => exact fun _ _ a b => ⟨a, b, rfl⟩
  | susp => exact fun _ _ a b => ⟨a, b, rfl⟩
  | eofRead => exact fun _ _ a b => ⟨a, b, rfl⟩
  | push _ _ h => intro _ hp; rw [h] at hp; simp at hp
  | drain => exact fun _ _ a b => ⟨a, b, rfl⟩

theorem lastN_self (k : Nat) (l : List UInt8) (h : l.length ≤ k) : lastN k l = l := by
  unfold lastN; rw [Nat.sub_eq_zero_of_le h, List.drop_zero]

theorem heard_data (w : World) (c i : Nat) (up : Bool) (d : List UInt8) (wr : Option WriteRes) :
    heard w c (.poll i up (some (.data d)) wr) =
    if i ∈ (w.obj c).writers ∧ ((w.obj i).pin = true ∨ (w.obj i).pout = true) then
      if (w.obj i).kind = .telnet then
        if (w.obj i).conn = .up then
          match telChunks (w.obj i).iac [d] with
          | some (_, app, _) => app
          | none => []
        else []
      else d
    else [] := rfl

/-- What one step does to a quiet client that stays. -/
theorem quiet_step {env : Env} {w w' : World} (h : FInv w) (s : Step) (hs : w.step env s = some w') (c : Nat)
    (hl : c ∈ w.live) (hk : (w.obj c).kind = .client) (hq : (w.obj c).quiet = true)
    (hlen : ∀ i up d wr, s = .poll i up (some (.data d)) wr → d.length ≤ 8191)
    (hself : ∀ up d wr, s = .poll c up (some (.data d)) wr → (wireCommands (w.obj c).gotEscape d).any isSelf = false)
    (hl' : c ∈ w'.live) (he' : (w'.obj c).eof = false) :
    (w'.obj c).kind = .client ∧ (w'.obj c).quiet = true ∧ (w.obj c).eof = false ∧
    ∃ x, sentTo c w'.fx = sentTo c w.fx ++ x ∧ x ++ (w'.obj c).pend = lastN queueCap ((w.obj c).pend ++ heard w c s) := by
  have x0 := h.x c hl
  have hcap := (h.e.d.inv.oi c).cap
  have hself0 : lastN queueCap ((w.obj c).pend ++ []) = (w.obj c).pend := by
    rw [List.append_nil]; exact lastN_self _ _ hcap
  have quietFx : (∀ up rd wr, s ≠ .poll c up rd (some wr)) → sentTo c w'.fx = sentTo c w.fx := by
    intro hn
    obtain ⟨l, e1, e2⟩ := step_sent env s hs
    rw [e1, sentTo_append, sentTo_none c l, List.append_nil]
    intro d hd
    obtain ⟨_, up, rd, wr, e⟩ := e2 c d hd
    exact hn up rd wr e
  have he : (w.obj c).eof = false := by
    cases hh : (w.obj c).eof with
    | false => rfl
    | true =>
      rcases eof_step h s hs c hl hh with ⟨_, g, _⟩ | ⟨g, up, rd, wr, rfl, _⟩
      · rw [g] at he'; simp at he'
      · rcases poll_cown h.e.d env c up rd wr hk hs with q | q
        · exact absurd hl' q
        · rw [q.gen] at g; omega
  by_cases ht : s.target = some c
  · by_cases hp : ∃ up rd wr, s = .poll c up rd wr
    · obtain ⟨up, rd, wr, rfl⟩ := hp
      have hheard : heard w c (.poll c up rd wr) = [] := by
        unfold heard
        split
        · rename_i heq
          simp only [Step.poll.injEq] at heq
          obtain ⟨rfl, -, -, -⟩ := heq
          rw [if_neg]
          rintro ⟨hm, -⟩
          exact not_client_of_console (h.e.d.inv.l.client_writers hk hm) hk
        · rfl
      rw [hheard, hself0]
      have ci := h.e.cl c hl hk
      simp only [World.step] at hs
      rw [if_neg (by simp [hl, ci.pin he])] at hs
      simp only [Option.map_eq_some_iff] at hs
      obtain ⟨w1, h1, h2⟩ := hs
      by_cases hl1 : c ∈ w1.live
      case neg => rw [if_pos hl1] at h2; subst h2; exact absurd hl' hl1
      rw [if_neg (by simp [hl1])] at h2
      have n1 : NoSent w w1 := by
        cases rd with
        | none => simp only [Option.some.injEq] at h1; subst h1; exact .refl _
        | some r => exact read_ns env up c r h1
      have i1 : WInv w1 ∧ COwn env false false (w.obj c) (w1.obj c) := by
        cases rd with
        | none => simp only [Option.some.injEq] at h1; subst h1; exact ⟨h.e.d.inv, .refl _⟩
        | some r =>
          refine ⟨(read_inv h.e.d.inv env up c r h1).1, ?_⟩
          rcases read_cown h.e.d.inv env up c r hk h1 with g | g
          · exact absurd hl1 g
          · have : selfData (w.obj c) (some r) = false := by
              cases r with
              | data d =>
                have hd := hlen c up d wr rfl
                have := hself up d wr rfl
                rw [← cmdsOf_wire _ d hd] at this
                exact this
              | _ => rfl
            rw [this] at g; exact g
      obtain ⟨q1, q2, q3⟩ := i1.2.quietStays rfl rfl hk hq
      split at h2
      · subst h2
        exact ⟨q1, q2, he, [], by rw [n1.sentTo c, List.append_nil], by rw [q3]; rfl⟩
      · rename_i r _
        have hx1 := XInv.own i1.2 hk x0
        have hnp : (w1.obj c).conn ≠ .pending := by
          intro hpd; have := (hx1.1.pending hpd).1; rw [hx1.2] at this; simp at this
        obtain ⟨n, f1, f2, f3, f4⟩ := flush_self i1.1 env up c r (hx1.1.client hx1.2) hnp
        subst h2
        rcases f4 with ⟨g1, g2, g3, g4, g5⟩ | ⟨_, _, g⟩
        · have fc : ((w1.flush env up c r).obj c).kind = .client ∧ ((w1.flush env up c r).obj c).quiet = true := by
            rcases flush_cown (w := w1) env up c r q1 false with g | g
            · exact absurd hl' g
            · have : ∀ {b p : Bool} {o o' : Obj}, COwn env b p o o' → b = false → o.kind = .client → o.quiet = true →
                  o'.kind = .client ∧ o'.quiet = true := by
                intro b p o o' h
                induction h with
                | refl => exact fun _ a b => ⟨a, b⟩
                | trans _ _ h1 h2 => exact fun hb a b => h2 hb (h1 hb a b).1 (h1 hb a b).2
                | pass p => exact fun _ a b => ⟨(p.quiet a b).1, (p.quiet a b).2.1⟩
                | data o d h => intro hb; rw [h] at hb; simp at hb
                | quiet o d h => intro hb; rw [h] at hb; simp at hb
                | flags => exact fun _ a b => ⟨a, b⟩
                | susp => exact fun _ a b => ⟨a, b⟩
                | eofRead => exact fun _ a b => ⟨a, b⟩
                | push => exact fun _ a b => ⟨a, b⟩
                | drain => exact fun _ a b => ⟨a, b⟩
              exact this g rfl q1 q2
          refine ⟨fc.1, fc.2, he, (w1.obj c).pend.take n, by rw [f2, n1.sentTo c], ?_⟩
          rw [g2, List.take_append_drop, q3]
        · exact absurd hl' (g q1)
    · have hheard : heard w c s = [] := by
        unfold heard
        split
        · rename_i i up d wr
          simp only [Step.target, Option.some.injEq] at ht; subst ht
          exact absurd ⟨_, _, _, rfl⟩ hp
        · rfl
      rw [hheard, hself0]
      have hfx := quietFx (fun up rd wr e => hp ⟨up, rd, some wr, e⟩)
      rcases step_client_target s hs hl hk ht (by intro up rd wr e; exact hp ⟨up, rd, wr, e⟩) with g | g
      · rw [g]; exact ⟨hk, hq, he, [], by rw [hfx, List.append_nil], rfl⟩
      · rw [g]; exact ⟨hk, hq, he, [], by rw [hfx, List.append_nil], rfl⟩
  · have hfx : sentTo c w'.fx = sentTo c w.fx := quietFx (by rintro up rd wr rfl; exact ht rfl)
    -- no data for the client
    have plain : dataTo w s c = false → heard w c s = [] →
        (w'.obj c).kind = .client ∧ (w'.obj c).quiet = true ∧ (w.obj c).eof = false ∧
        ∃ x, sentTo c w'.fx = sentTo c w.fx ++ x ∧ x ++ (w'.obj c).pend = lastN queueCap ((w.obj c).pend ++ heard w c s) := by
      intro hd hh
      obtain ⟨q1, q2, q3⟩ := (step_ext h.e.d env s hs c ht).quiet hd hk hq
      rw [hh, hself0]
      exact ⟨q1, q2, he, [], by rw [hfx, List.append_nil], by rw [q3]; rfl⟩
    cases s with
    | poll i up rd wr =>
      cases rd with
      | none => exact plain rfl rfl
      | some r =>
        cases r with
        | eof => exact plain rfl rfl
        | again => exact plain rfl rfl
        | err => exact plain rfl rfl
        | data d =>
          have hci : c ≠ i := by rintro rfl; exact ht rfl
          have hd := hlen i up d wr rfl
          by_cases hm : i ∈ (w.obj c).writers
          case neg =>
            apply plain
            · unfold dataTo
              dsimp only
              split
              · rw [hk]; rfl
              · have : c ∉ (w.obj i).readers := fun g => hm ((h.e.d.inv.l.sym i c).1 g)
                simpa using this
            · rw [heard_data, if_neg (fun g => hm g.1)]
          have hrd : c ∈ (w.obj i).readers := (h.e.d.inv.l.sym i c).2 hm
          have hcon := h.e.d.inv.l.client_writers hk hm
          have hil : i ∈ w.live := (h.e.d.inv.l.live i c hrd).1
          simp only [World.step] at hs
          by_cases hpp : (w.obj i).pin = true ∨ (w.obj i).pout = true
          case neg =>
            rw [if_pos (Or.inr (by simpa using hpp))] at hs
            simp only [Option.some.injEq] at hs; subst hs
            have hh : heard w c (.poll i up (some (.data d)) wr) = [] := by
              rw [heard_data, if_neg (fun g => hpp g.2)]
            rw [hh, hself0]
            exact ⟨hk, hq, he, [], by rw [List.append_nil], rfl⟩
          rw [if_neg (by rcases hpp with g | g <;> simp [hil, g])] at hs
          simp only [Option.map_eq_some_iff] at hs
          obtain ⟨w1, h1, h2⟩ := hs
          have i1 := read_inv h.e.d.inv env up i (.data d) h1
          have hfd : (w.obj i).fd = true := by
            cases hf : (w.obj i).fd with
            | true => rfl
            | false =>
              have := (h.e.d.inv.oi i).closed hf
              rcases hpp with g | g
              · rw [this.1] at g; simp at g
              · rw [this.2] at g; simp at g
          -- the flush adds nothing
          have fl : (w1.obj c).kind = .client → (w1.obj c).quiet = true →
              (w'.obj c).kind = .client ∧ (w'.obj c).quiet = true ∧ (w'.obj c).pend = (w1.obj c).pend := by
            intro a b
            split at h2
            · subst h2; exact ⟨a, b, rfl⟩
            split at h2
            · subst h2; exact ⟨a, b, rfl⟩
            · subst h2
              exact (flush_estep i1.1 env up i _ (fun _ => false) c hci).quiet rfl a b
          -- the read
          have rdd : (w1.obj c).kind = .client ∧ (w1.obj c).quiet = true ∧
              (w1.obj c).pend = lastN queueCap ((w.obj c).pend ++ heard w c (.poll i up (some (.data d)) wr)) := by
            have wr1 : ∀ (e : List UInt8) (v : World), LInv v → v.obj c = w.obj c → c ∈ (v.obj i).readers → e.length ≤ queueCap →
                ((v.deliver env i e).obj c).kind = .client ∧ ((v.deliver env i e).obj c).quiet = true ∧
                ((v.deliver env i e).obj c).pend = lastN queueCap ((w.obj c).pend ++ e) := by
              intro e v hv hvc hvr hel
              by_cases h0 : e = []
              · subst h0; rw [deliver_nil, hvc, hself0]; exact ⟨hk, hq, rfl⟩
              · rw [(deliver_exact hv env i e h0).1, if_pos hvr, hvc, if_neg (by rw [hk]; simp)]
                refine ⟨by simpa using hk, by simpa using hq, ?_⟩
                rw [Obj.write_data_pend _ _ he hcap, enq_le _ _ hel]
            unfold World.read at h1
            rw [if_neg (by simp [hfd])] at h1
            rw [heard_data, if_pos ⟨hm, hpp⟩]
            by_cases htel : (w.obj i).kind = .telnet
            · rw [if_pos htel]
              by_cases hup : (w.obj i).conn = .up
              · rw [if_pos hup]
                rw [if_neg (by simp [hup]), if_neg (by rw [htel]; simp)] at h1
                simp only [htel, Option.map_eq_some_iff] at h1
                rw [List.take_of_length_le (by rw [readBufSize_eq]; exact hd)] at h1
                obtain ⟨t, ht1, rfl⟩ := h1
                obtain ⟨t', e1, e2⟩ := tel_ok (h.x i hil).iac d
                rw [ht1, Option.some.injEq] at e1
                subst e1
                rw [e2]
                have hsl : SL w (w.mod i (fun o => ({ o with iac := t.iac }).write t.sent false)) := by
                  refine ⟨fun j => ?_, rfl⟩
                  rw [World.mod_obj]; split
                  · rename_i e; subst e; simp
                  · exact ⟨rfl, rfl, rfl⟩
                have hlen' : (t.buf.take t.len).length ≤ 8191 := by
                  have ht' := telLoop_eq d 0 0 (w.obj i).iac [] (by omega) (by omega)
                  unfold processTelnetEscapes at ht1
                  rw [ht1, List.drop_zero] at ht'
                  cases hr : telRef (w.obj i).iac d with
                  | none => simp [hr, TelOut.trip] at ht'
                  | some r =>
                    simp only [hr, TelOut.trip] at ht'
                    rw [List.length_take]; omega
                exact wr1 _ _ (h.e.d.inv.l.same hsl) (World.mod_ne _ _ hci) (by rw [World.mod_self]; simpa using hrd)
                  (by unfold queueCap; omega)
              · rw [if_neg hup, hself0]
                rw [if_pos ⟨htel, hup⟩] at h1
                simp only [Option.some.injEq] at h1; subst h1
                exact ⟨hk, hq, rfl⟩
            · rw [if_neg htel]
              rw [if_neg (fun g => htel g.1), if_neg (by intro hlg; rw [hlg] at hcon; simp [OKind.isConsole] at hcon)] at h1
              dsimp only at h1
              rw [List.take_of_length_le (by rw [readBufSize_eq]; exact hd)] at h1
              split at h1
              · rename_i hkc; rw [hkc] at hcon; simp [OKind.isConsole] at hcon
              · rename_i hkc; exact absurd hkc htel
              · simp only [Option.some.injEq] at h1; subst h1
                exact wr1 d w h.e.d.inv.l rfl hrd (by unfold queueCap; omega)
          obtain ⟨a1, a2, a3⟩ := rdd
          obtain ⟨b1, b2, b3⟩ := fl a1 a2
          exact ⟨b1, b2, he, [], by rw [hfx, List.append_nil], by rw [List.nil_append, b3, a3]⟩
    | _ => exact plain rfl rfl

/-- Over a history without overflow nothing is lost or added. -/
theorem quiet_run {env : Env} (c : Nat) (ss : List Step) : ∀ {w w' : World}, FInv w → w.run env ss = some w' →
    c ∈ w.live → (w.obj c).kind = .client → (w.obj c).quiet = true → ss.all (noGrant c) = true →
    (∀ i up d wr, .poll i up (some (.data d)) wr ∈ ss → d.length ≤ 8191) →
    (wireCommands (w.obj c).gotEscape (ss.flatMap (readFrom c))).any isSelf = false →
    noOverflow env w c ss = true → c ∈ w'.live → (w'.obj c).eof = false →
    sentTo c w'.fx ++ (w'.obj c).pend = sentTo c w.fx ++ (w.obj c).pend ++ heardAll env w c ss := by
  induction ss with
  | nil =>
    intro w w' _ hr _ _ _ _ _ _ _ _ _
    simp only [World.run, Option.some.injEq] at hr; subst hr
    simp [heardAll]
  | cons s ss ih =>
    intro w w' h hr hl hk hq hng hlen hself hno hl' he'
    have hr0 := hr
    simp only [World.run, Option.bind_eq_some_iff] at hr
    obtain ⟨w1, h1, h2⟩ := hr
    simp only [List.all_cons, Bool.and_eq_true] at hng
    have h3 := (h.step s h1).tick (w1.tick + 1)
    -- the client is there in between
    have hl1 : c ∈ w1.live := by
      by_cases g : c ∈ w1.live
      · exact g
      · exact absurd hl' (run_gone (w := { w1 with tick := w1.tick + 1 }) c ss h3.e h2 hng.2 g)
    have hrf : (readFrom c s).length ≤ 8191 := by
      unfold readFrom
      split
      · split
        · exact hlen _ _ _ _ List.mem_cons_self
        · simp
      · simp
    have hkd : (w1.obj c).kind = .client := (step_mode h.e s h1 c hl hk hrf hl1).1
    have he1 : (w1.obj c).eof = false := by
      cases hh : (w1.obj c).eof with
      | false => rfl
      | true =>
        have hrs : ∀ t ∈ ss, (readFrom c t).length ≤ 8191 := by
          intro t ht
          unfold readFrom
          split
          · split
            · exact hlen _ _ _ _ (List.mem_cons_of_mem _ ht)
            · simp
          · simp
        have := (run_mode (w := { w1 with tick := w1.tick + 1 }) c ss h3.e h2 hng.2 hrs hl1 hkd hl').2.1 hh
        rw [this] at he'; simp at he'
    have hgs : (w1.obj c).gotEscape = (unescRef (w.obj c).gotEscape (readFrom c s)).1 :=
      ((step_mode h.e s h1 c hl hk hrf hl1).2.2 he1).esc
    rw [List.flatMap_cons] at hself
    have hsplit : (wireCommands (w.obj c).gotEscape (readFrom c s ++ ss.flatMap (readFrom c))) =
        wireCommands (w.obj c).gotEscape (readFrom c s) ++ wireCommands (w1.obj c).gotEscape (ss.flatMap (readFrom c)) := by
      rw [← (unescRef_wire _ _).2, ← (unescRef_wire _ _).2, ← (unescRef_wire _ _).2, unescRef_append, hgs]
    rw [hsplit, List.any_append, Bool.or_eq_false_iff] at hself
    unfold noOverflow at hno
    rw [h1, Bool.and_eq_true, decide_eq_true_eq] at hno
    obtain ⟨q1, q2, q3, x, q4, q5⟩ := quiet_step h s h1 c hl hk hq (fun i up d wr e => hlen i up d wr (by simp [e]))
      (by
        rintro up d wr rfl
        have := hself.1
        simpa [readFrom] using this) hl1 he1
    rw [lastN_self _ _ (by rw [List.length_append]; exact hno.1)] at q5
    have := ih (w := { w1 with tick := w1.tick + 1 }) h3 h2 hl1 q1 q2 hng.2 (fun i up d wr hm => hlen i up d wr (by simp [hm]))
      hself.2 hno.2 hl' he'
    rw [this]
    dsimp only
    have e : heardAll env w c (s :: ss) = heard w c s ++ heardAll env { w1 with tick := w1.tick + 1 } c ss := by
      rw [heardAll, h1]
    rw [e, q4, List.append_assoc (sentTo c w.fx) x, q5]
    simp only [List.append_assoc]

/-! ### Any client -/

theorem adds_refl {o : Obj} (hc : o.pend.length ≤ queueCap) : ∃ m, o.pend = lastN queueCap (o.pend ++ m) :=
  ⟨[], by rw [List.append_nil, lastN_self _ _ hc]⟩

theorem adds_trans {k : Nat} {a b c : List UInt8} (h : ∃ m, b = lastN k (a ++ m)) (h' : ∃ m, c = lastN k (b ++ m)) :
    ∃ m, c = lastN k (a ++ m) := by
  obtain ⟨m, rfl⟩ := h
  obtain ⟨m', rfl⟩ := h'
  exact ⟨m ++ m', by rw [lastN_append_lastN, List.append_assoc]⟩

theorem lastN_len (k : Nat) (l : List UInt8) : (lastN k l).length ≤ k := by
  unfold lastN; rw [List.length_drop]; omega

theorem adds_write (o : Obj) (d : List UInt8) (b : Bool) (hc : o.pend.length ≤ queueCap) :
    (o.write d b).pend.length ≤ queueCap ∧ ∃ m, (o.write d b).pend = lastN queueCap (o.pend ++ m) := by
  rcases o.write_cases d b with e | ⟨_, e⟩
  · rw [e]; exact ⟨hc, adds_refl hc⟩
  · rw [e]
    have h : ∀ q : List UInt8, q = enq o.pend d → q.length ≤ queueCap ∧ ∃ m, q = lastN queueCap (o.pend ++ m) := by
      intro q hq
      obtain ⟨m, hm⟩ := enq_is o.pend d
      rw [hm] at hq
      exact ⟨by rw [hq]; exact lastN_len _ _, m, hq⟩
    dsimp only
    exact h (enq o.pend d) (Eq.refl _)

theorem Passive.adds {o o' : Obj} (h : Passive env o o') : o.pend.length ≤ queueCap →
    o'.pend.length ≤ queueCap ∧ ∃ m, o'.pend = lastN queueCap (o.pend ++ m) := by
  induction h with
  | refl => exact fun hc => ⟨hc, adds_refl hc⟩
  | trans _ _ h1 h2 => exact fun hc => ⟨(h2 (h1 hc).1).1, adds_trans (h1 hc).2 (h2 (h1 hc).1).2⟩
  | info o n t _ => exact adds_write o (env.txt n t) true
  | links => exact fun hc => ⟨hc, adds_refl hc⟩
  | orphan => exact fun hc => ⟨hc, adds_refl hc⟩

theorem Ext.adds {b : Bool} {o o' : Obj} (h : Ext env b o o') : o.pend.length ≤ queueCap →
    o'.pend.length ≤ queueCap ∧ ∃ m, o'.pend = lastN queueCap (o.pend ++ m) := by
  induction h with
  | refl => exact fun hc => ⟨hc, adds_refl hc⟩
  | trans _ _ h1 h2 => exact fun hc => ⟨(h2 (h1 hc).1).1, adds_trans (h1 hc).2 (h2 (h1 hc).1).2⟩
  | pass p => exact p.adds
  | reset => exact fun hc => ⟨hc, adds_refl hc⟩
  | data o d _ => exact adds_write o d false
  | log => exact fun hc => ⟨hc, adds_refl hc⟩

theorem COwn.adds {b p : Bool} {o o' : Obj} (h : COwn env b p o o') (hp : p = false) : o.pend.length ≤ queueCap →
    o'.pend.length ≤ queueCap ∧ ∃ m, o'.pend = lastN queueCap (o.pend ++ m) := by
  induction h with
  | refl => exact fun hc => ⟨hc, adds_refl hc⟩
  | trans _ _ h1 h2 => exact fun hc => ⟨(h2 (h1 hc).1).1, adds_trans (h1 hc).2 (h2 (h1 hc).1).2⟩
  | pass p => exact p.adds
  | data o d _ => exact adds_write o d false
  | quiet => exact fun hc => ⟨hc, adds_refl hc⟩
  | flags => exact fun hc => ⟨hc, adds_refl hc⟩
  | susp => exact fun hc => ⟨hc, adds_refl hc⟩
  | eofRead => exact fun hc => ⟨hc, adds_refl hc⟩
  | push _ _ h => rw [hp] at h; simp at h
  | drain => exact fun hc => ⟨hc, adds_refl hc⟩

/-- What one step does to any client that stays: console data is added, then perhaps messages; some of it is sent. -/
theorem client_step {env : Env} {w w' : World} (h : FInv w) (s : Step) (hs : w.step env s = some w') (c : Nat)
    (hl : c ∈ w.live) (hk : (w.obj c).kind = .client)
    (hlen : ∀ i up d wr, s = .poll i up (some (.data d)) wr → d.length ≤ 8191)
    (hl' : c ∈ w'.live) (he' : (w'.obj c).eof = false) :
    (w.obj c).eof = false ∧
    ∃ x m, sentTo c w'.fx = sentTo c w.fx ++ x ∧ x ++ (w'.obj c).pend = lastN queueCap ((w.obj c).pend ++ heard w c s ++ m) := by
  have x0 := h.x c hl
  have hcap := (h.e.d.inv.oi c).cap
  have quietFx : (∀ up rd wr, s ≠ .poll c up rd (some wr)) → sentTo c w'.fx = sentTo c w.fx := by
    intro hn
    obtain ⟨l, e1, e2⟩ := step_sent env s hs
    rw [e1, sentTo_append, sentTo_none c l, List.append_nil]
    intro d hd
    obtain ⟨_, up, rd, wr, e⟩ := e2 c d hd
    exact hn up rd wr e
  have he : (w.obj c).eof = false := by
    cases hh : (w.obj c).eof with
    | false => rfl
    | true =>
      rcases eof_step h s hs c hl hh with ⟨_, g, _⟩ | ⟨g, up, rd, wr, rfl, _⟩
      · rw [g] at he'; simp at he'
      · rcases poll_cown h.e.d env c up rd wr hk hs with q | q
        · exact absurd hl' q
        · rw [q.gen] at g; omega
  refine ⟨he, ?_⟩
  -- nothing heard, nothing sent
  have plain : heard w c s = [] → sentTo c w'.fx = sentTo c w.fx → (∃ m, (w'.obj c).pend = lastN queueCap ((w.obj c).pend ++ m)) →
      ∃ x m, sentTo c w'.fx = sentTo c w.fx ++ x ∧ x ++ (w'.obj c).pend = lastN queueCap ((w.obj c).pend ++ heard w c s ++ m) := by
    rintro hh hf ⟨m, hm⟩
    exact ⟨[], m, by rw [hf, List.append_nil], by rw [hh, List.append_nil, List.nil_append, hm]⟩
  by_cases ht : s.target = some c
  · by_cases hp : ∃ up rd wr, s = .poll c up rd wr
    · obtain ⟨up, rd, wr, rfl⟩ := hp
      have hheard : heard w c (.poll c up rd wr) = [] := by
        unfold heard
        split
        · rename_i heq
          simp only [Step.poll.injEq] at heq
          obtain ⟨rfl, -, -, -⟩ := heq
          rw [if_neg]
          rintro ⟨hm, -⟩
          exact not_client_of_console (h.e.d.inv.l.client_writers hk hm) hk
        · rfl
      have ci := h.e.cl c hl hk
      simp only [World.step] at hs
      rw [if_neg (by simp [hl, ci.pin he])] at hs
      simp only [Option.map_eq_some_iff] at hs
      obtain ⟨w1, h1, h2⟩ := hs
      by_cases hl1 : c ∈ w1.live
      case neg => rw [if_pos hl1] at h2; subst h2; exact absurd hl' hl1
      rw [if_neg (by simp [hl1])] at h2
      have n1 : NoSent w w1 := by
        cases rd with
        | none => simp only [Option.some.injEq] at h1; subst h1; exact .refl _
        | some r => exact read_ns env up c r h1
      have i1 : WInv w1 ∧ ∃ b, COwn env b false (w.obj c) (w1.obj c) := by
        cases rd with
        | none => simp only [Option.some.injEq] at h1; subst h1; exact ⟨h.e.d.inv, false, .refl _⟩
        | some r =>
          refine ⟨(read_inv h.e.d.inv env up c r h1).1, ?_⟩
          rcases read_cown h.e.d.inv env up c r hk h1 with g | g
          · exact absurd hl1 g
          · exact ⟨_, g⟩
      obtain ⟨i1, b, hco⟩ := i1
      obtain ⟨_, m, q3⟩ := hco.adds rfl hcap
      split at h2
      · subst h2
        exact plain hheard (n1.sentTo c) ⟨m, q3⟩
      · rename_i r _
        have hx1 := XInv.own hco hk x0
        have hnp : (w1.obj c).conn ≠ .pending := by
          intro hpd; have := (hx1.1.pending hpd).1; rw [hx1.2] at this; simp at this
        obtain ⟨n, f1, f2, f3, f4⟩ := flush_self i1 env up c r (hx1.1.client hx1.2) hnp
        subst h2
        rcases f4 with ⟨g1, g2, g3, g4, g5⟩ | ⟨_, _, g⟩
        · refine ⟨(w1.obj c).pend.take n, m, by rw [f2, n1.sentTo c], ?_⟩
          rw [g2, List.take_append_drop, q3, hheard, List.append_nil]
        · exact absurd hl' (g hx1.2)
    · have hheard : heard w c s = [] := by
        unfold heard
        split
        · rename_i i up d wr
          simp only [Step.target, Option.some.injEq] at ht; subst ht
          exact absurd ⟨_, _, _, rfl⟩ hp
        · rfl
      have hfx := quietFx (fun up rd wr e => hp ⟨up, rd, some wr, e⟩)
      apply plain hheard hfx
      rcases step_client_target s hs hl hk ht (by intro up rd wr e; exact hp ⟨up, rd, wr, e⟩) with g | g
      · rw [g]; exact adds_refl hcap
      · rw [g]; exact adds_refl (o := w.obj c) hcap
  · have hfx : sentTo c w'.fx = sentTo c w.fx := quietFx (by rintro up rd wr rfl; exact ht rfl)
    have other : heard w c s = [] →
        ∃ x m, sentTo c w'.fx = sentTo c w.fx ++ x ∧ x ++ (w'.obj c).pend = lastN queueCap ((w.obj c).pend ++ heard w c s ++ m) :=
      fun hh => plain hh hfx ((step_ext h.e.d env s hs c ht).adds hcap).2
    cases s with
    | poll i up rd wr =>
      cases rd with
      | none => exact other rfl
      | some r =>
        cases r with
        | eof => exact other rfl
        | again => exact other rfl
        | err => exact other rfl
        | data d =>
          have hci : c ≠ i := by rintro rfl; exact ht rfl
          have hd := hlen i up d wr rfl
          by_cases hm : i ∈ (w.obj c).writers
          case neg =>
            apply other
            rw [heard_data, if_neg (fun g => hm g.1)]
          have hrd : c ∈ (w.obj i).readers := (h.e.d.inv.l.sym i c).2 hm
          have hcon := h.e.d.inv.l.client_writers hk hm
          have hil : i ∈ w.live := (h.e.d.inv.l.live i c hrd).1
          by_cases hpp : (w.obj i).pin = true ∨ (w.obj i).pout = true
          case neg =>
            apply other
            rw [heard_data, if_neg (fun g => hpp g.2)]
          simp only [World.step] at hs
          rw [if_neg (by rcases hpp with g | g <;> simp [hil, g])] at hs
          simp only [Option.map_eq_some_iff] at hs
          obtain ⟨w1, h1, h2⟩ := hs
          have i1 := read_inv h.e.d.inv env up i (.data d) h1
          have hfd : (w.obj i).fd = true := by
            cases hf : (w.obj i).fd with
            | true => rfl
            | false =>
              have := (h.e.d.inv.oi i).closed hf
              rcases hpp with g | g
              · rw [this.1] at g; simp at g
              · rw [this.2] at g; simp at g
          -- the read
          have rdd : (w1.obj c).pend = lastN queueCap ((w.obj c).pend ++ heard w c (.poll i up (some (.data d)) wr)) := by
            have self0 : lastN queueCap ((w.obj c).pend ++ []) = (w.obj c).pend := by
              rw [List.append_nil]; exact lastN_self _ _ hcap
            have wr1 : ∀ (e : List UInt8) (v : World), LInv v → v.obj c = w.obj c → c ∈ (v.obj i).readers → e.length ≤ queueCap →
                ((v.deliver env i e).obj c).pend = lastN queueCap ((w.obj c).pend ++ e) := by
              intro e v hv hvc hvr hel
              by_cases h0 : e = []
              · subst h0; rw [deliver_nil, hvc, self0]
              · rw [(deliver_exact hv env i e h0).1, if_pos hvr, hvc, if_neg (by rw [hk]; simp)]
                rw [Obj.write_data_pend _ _ he hcap, enq_le _ _ hel]
            unfold World.read at h1
            rw [if_neg (by simp [hfd])] at h1
            rw [heard_data, if_pos ⟨hm, hpp⟩]
            by_cases htel : (w.obj i).kind = .telnet
            · rw [if_pos htel]
              by_cases hup : (w.obj i).conn = .up
              · rw [if_pos hup]
                rw [if_neg (by simp [hup]), if_neg (by rw [htel]; simp)] at h1
                simp only [htel, Option.map_eq_some_iff] at h1
                rw [List.take_of_length_le (by rw [readBufSize_eq]; exact hd)] at h1
                obtain ⟨t, ht1, rfl⟩ := h1
                obtain ⟨t', e1, e2⟩ := tel_ok (h.x i hil).iac d
                rw [ht1, Option.some.injEq] at e1
                subst e1
                rw [e2]
                have hsl : SL w (w.mod i (fun o => ({ o with iac := t.iac }).write t.sent false)) := by
                  refine ⟨fun j => ?_, rfl⟩
                  rw [World.mod_obj]; split
                  · rename_i e; subst e; simp
                  · exact ⟨rfl, rfl, rfl⟩
                have hlen' : (t.buf.take t.len).length ≤ 8191 := by
                  have ht' := telLoop_eq d 0 0 (w.obj i).iac [] (by omega) (by omega)
                  unfold processTelnetEscapes at ht1
                  rw [ht1, List.drop_zero] at ht'
                  cases hr : telRef (w.obj i).iac d with
                  | none => simp [hr, TelOut.trip] at ht'
                  | some r =>
                    simp only [hr, TelOut.trip] at ht'
                    rw [List.length_take]; omega
                exact wr1 _ _ (h.e.d.inv.l.same hsl) (World.mod_ne _ _ hci) (by rw [World.mod_self]; simpa using hrd)
                  (by unfold queueCap; omega)
              · rw [if_neg hup, self0]
                rw [if_pos ⟨htel, hup⟩] at h1
                simp only [Option.some.injEq] at h1; subst h1
                rfl
            · rw [if_neg htel]
              rw [if_neg (fun g => htel g.1), if_neg (by intro hlg; rw [hlg] at hcon; simp [OKind.isConsole] at hcon)] at h1
              dsimp only at h1
              rw [List.take_of_length_le (by rw [readBufSize_eq]; exact hd)] at h1
              split at h1
              · rename_i hkc; rw [hkc] at hcon; simp [OKind.isConsole] at hcon
              · rename_i hkc; exact absurd hkc htel
              · simp only [Option.some.injEq] at h1; subst h1
                exact wr1 d w h.e.d.inv.l rfl hrd (by unfold queueCap; omega)
          -- the flush may add messages
          have fl : ∃ m, (w'.obj c).pend = lastN queueCap ((w1.obj c).pend ++ m) := by
            have hc1 := (i1.1.oi c).cap
            split at h2
            · subst h2; exact adds_refl hc1
            split at h2
            · subst h2; exact adds_refl hc1
            · subst h2
              exact ((flush_estep i1.1 env up i _ (fun _ => false) c hci).adds hc1).2
          obtain ⟨m, fl⟩ := fl
          exact ⟨[], m, by rw [hfx, List.append_nil], by rw [List.nil_append, fl, rdd, lastN_append_lastN]⟩
    | _ => exact other rfl

/-! ### Suspended clients -/

theorem suspAfter_append (s : Bool) (a b : List UInt8) : suspAfter s (a ++ b) = suspAfter (suspAfter s a) b := by
  unfold suspAfter; rw [List.foldl_append]

theorem Obj.write_susp (o : Obj) (d : List UInt8) (b : Bool) : (o.write d b).suspend = o.suspend := by
  rcases o.write_cases d b with e | ⟨_, e⟩ <;> rw [e]

theorem Passive.susp {o o' : Obj} (h : Passive env o o') : o'.suspend = o.suspend := by
  induction h with
  | refl => rfl
  | trans _ _ h1 h2 => rw [h2, h1]
  | info => exact Obj.write_susp _ _ _
  | links => rfl
  | orphan => rfl

theorem Ext.susp {b : Bool} {o o' : Obj} (h : Ext env b o o') : o'.suspend = o.suspend := by
  induction h with
  | refl => rfl
  | trans _ _ h1 h2 => rw [h2, h1]
  | pass p => exact p.susp
  | reset => rfl
  | data => exact Obj.write_susp _ _ _
  | log => rfl

theorem act_susp {w w' : World} {x : Option Nat} (h : WInvX w x) (env : Env) (c : Nat) (hx : some c ≠ x)
    (hk : (w.obj c).kind = .client) (a : UInt8) (ht : w.act env c a = some w') :
    (w'.obj c).suspend = if a = 0x5A then !(w.obj c).suspend else (w.obj c).suspend := by
  have htog : ∀ f j, (w.mod c (fun o => { o with force := f, join := j })).toggle env c = some w' →
      (w'.obj c).suspend = (w.obj c).suspend := by
    intro f j hh
    have s : LStep w (w.mod c (fun o => { o with force := f, join := j })) :=
      .mod _ _ _ ⟨rfl, rfl, rfl, rfl, rfl, rfl, rfl, fun h => ⟨h.cap, h.susp, h.closed⟩⟩
    obtain ⟨cm, hp⟩ := toggle_eff (h.wstep s.ws) env c hx (by rw [(s.loc c).kind]; exact hk) hh
    have := (hp.touched c).susp
    rw [World.mod_self, World.mod_self] at this
    exact this
  have hne : ∀ con ∈ (w.obj c).readers, c ≠ con := by
    rintro con hc rfl; exact not_client_of_console (h.l.client_readers hk hc) hk
  unfold World.act at ht
  split at ht
  · rename_i e; subst e
    simp only [Option.some.injEq] at ht; subst ht
    rw [foldl_other _ _ c w (fun v a ha => break1_other v (hne a ha))]; rfl
  split at ht
  · rename_i e; subst e
    simp only [Option.some.injEq] at ht; subst ht
    rw [foldl_other _ _ c w (fun v a ha => World.mod_ne _ _ (hne a ha))]; rfl
  split at ht
  · rename_i e; subst e; exact htog _ _ ht
  split at ht
  · rename_i e; subst e; exact htog _ _ ht
  split at ht
  · rename_i e; subst e
    split at ht
    · simp only [Option.some.injEq] at ht; subst ht; rfl
    · simp only [Option.some.injEq] at ht; subst ht; rw [World.mod_self, Obj.write_susp]; rfl
  split at ht
  · rename_i e; subst e; exact htog _ _ ht
  split at ht
  · rename_i e; subst e
    simp only [Option.some.injEq] at ht; subst ht; rw [World.mod_self, Obj.write_susp]; rfl
  split at ht
  · rename_i e; subst e
    simp only [Option.some.injEq] at ht; subst ht
    have : ∀ (l : List Nat) (v : World), (∀ a ∈ l, a ∈ (w.obj c).readers) → LStep w v →
        Passive env (v.obj c) ((l.foldl (fun w con => w.reset1 env c con) v).obj c) := by
      intro l
      induction l with
      | nil => intro v _ _; exact .refl _
      | cons a l ih =>
        intro v hl hv
        rw [List.foldl_cons]
        have hkc : (v.obj a).kind.isConsole = true := by
          rw [(hv.loc a).kind]; exact h.l.client_readers hk (hl a (by simp))
        have hl' := h.l.same hv.sl
        exact (reset1_passive hl' env c a hkc (hne a (hl a (by simp)))).trans
          (ih _ (fun b hb => hl b (by simp [hb])) (hv.trans (reset1_lstep hl' env c a hkc)))
    rw [(this _ _ (fun _ h => h) (.refl _)).susp]; rfl
  split at ht
  · rename_i e; subst e
    simp only [Option.some.injEq] at ht; subst ht; rw [World.mod_self]; rfl
  · rename_i e
    simp only [Option.some.injEq] at ht; subst ht; rw [if_neg e]

theorem acts_susp (env : Env) (c : Nat) (as : List UInt8) :
    ∀ {w w' : World}, WInv w → (w.obj c).kind = .client → w.acts env c as = some w' →
    (w'.obj c).suspend = suspAfter (w.obj c).suspend as := by
  induction as with
  | nil => intro w w' h hk ht; simp only [World.acts, Option.some.injEq] at ht; subst ht; rfl
  | cons a as ih =>
    intro w w' h hk ht
    simp only [World.acts, Option.bind_eq_some_iff] at ht
    obtain ⟨w1, h1, h2⟩ := ht
    obtain ⟨h3, h4⟩ := act_inv h env c (by simp) hk a h1
    rw [ih h3 (by rw [h4.kind]; exact hk) h2, act_susp h env c (by simp) hk a h1]
    rfl

theorem flush_susp {w : World} (env : Env) (up : Bool) (c : Nat) (r : WriteRes)
    (hk : (w.obj c).kind = .client) :
    c ∉ (w.flush env up c r).live ∨ ((w.flush env up c r).obj c).suspend = (w.obj c).suspend := by
  unfold World.flush
  dsimp only
  split
  · exact Or.inr rfl
  rename_i hf
  have hf : (w.obj c).fd = true := by simpa using hf
  split
  · exact Or.inr rfl
  have s1 := push_ws w c (r.count (w.obj c).pend.length)
  have s2 := drained_ws (w.push c (r.count (w.obj c).pend.length)) c
  have hf1 : (((w.push c (r.count (w.obj c).pend.length)).drained c).obj c).fd = true ∧
      (((w.push c (r.count (w.obj c).pend.length)).drained c).obj c).suspend = (w.obj c).suspend := by
    unfold World.drained
    split
    · rw [World.mod_self]; unfold World.push; rw [World.mod_self]; exact ⟨hf, rfl⟩
    · unfold World.push; rw [World.mod_self]; exact ⟨hf, rfl⟩
  split
  · exact Or.inl (shutdown_client env up c hf1.1 (by rw [(s2.loc c).kind, (s1.loc c).kind]; exact hk))
  · exact Or.inr hf1.2

/-- Suspension follows the commands of the client. -/
theorem step_susp {env : Env} {w w' : World} (h : FInv w) (s : Step) (hs : w.step env s = some w') (c : Nat)
    (hl : c ∈ w.live) (hk : (w.obj c).kind = .client) (hlen : (readFrom c s).length ≤ 8191) (hl' : c ∈ w'.live)
    (he : (w.obj c).eof = false) :
    (w'.obj c).suspend = suspAfter (w.obj c).suspend (wireCommands (w.obj c).gotEscape (readFrom c s)) := by
  have none0 : ∀ e, suspAfter (w.obj c).suspend (wireCommands e []) = (w.obj c).suspend := fun e => by
    rw [wireCommands]; rfl
  by_cases ht : s.target = some c
  · by_cases hp : ∃ up rd wr, s = .poll c up rd wr
    · obtain ⟨up, rd, wr, rfl⟩ := hp
      have ci := h.e.cl c hl hk
      simp only [World.step] at hs
      rw [if_neg (by simp [hl, ci.pin he])] at hs
      simp only [Option.map_eq_some_iff] at hs
      obtain ⟨w1, h1, h2⟩ := hs
      by_cases hl1 : c ∈ w1.live
      case neg => rw [if_pos hl1] at h2; subst h2; exact absurd hl' hl1
      rw [if_neg (by simp [hl1])] at h2
      have k1 : (w1.obj c).kind = .client ∧
          (w1.obj c).suspend = suspAfter (w.obj c).suspend (wireCommands (w.obj c).gotEscape (readFrom c (.poll c up rd wr))) := by
        cases rd with
        | none => simp only [Option.some.injEq] at h1; subst h1; exact ⟨hk, (none0 _).symm⟩
        | some r =>
          have h1' := h1
          refine ⟨by rw [(read_inv h.e.d.inv env up c r h1).2.kind]; exact hk, ?_⟩
          dsimp only at h1
          unfold World.read at h1
          rw [if_neg (by simp [ci.fd]), if_neg (by simp [hk]), if_neg (by rw [hk]; simp)] at h1
          cases r with
          | again => simp only [Option.some.injEq] at h1; subst h1; exact (none0 _).symm
          | err => simp only [Option.some.injEq] at h1; subst h1; exact absurd hl1 (shutdown_client env up c ci.fd hk)
          | eof =>
            simp only [Option.some.injEq] at h1
            split at h1
            · subst h1
              refine absurd hl1 (shutdown_client env up c ?_ ?_) <;> rw [World.mod_self]
              · exact ci.fd
              · exact hk
            · subst h1; rw [World.mod_self]; exact (none0 _).symm
          | data d =>
            simp only [hk, Option.map_eq_some_iff] at h1
            obtain ⟨w2, h3, rfl⟩ := h1
            rw [cmdsOf_eq] at h3
            have hi := acts_inv env c none (by simp) _ h.e.d.inv hk h3
            have hrf : readFrom c (.poll c up (some (.data d)) wr) = d := by simp [readFrom]
            rw [hrf] at hlen
            rw [hrf, deliver_other]
            · rw [World.mod_self, ← cmdsOf_wire _ _ hlen]
              exact acts_susp env c _ h.e.d.inv hk h3
            · rw [World.mod_self]
              intro hh
              have hk1 : (w2.obj c).kind = .client := by rw [hi.2.kind]; exact hk
              exact not_client_of_console (hi.1.l.client_readers hk1 hh) hk1
      split at h2
      · subst h2; exact k1.2
      · subst h2
        rcases flush_susp (w := w1) env up c _ k1.1 with g | g
        · exact absurd hl' g
        · rw [g]; exact k1.2
    · have hrf : readFrom c s = [] := by
        unfold readFrom
        split
        · rename_i i up d wr
          simp only [Step.target, Option.some.injEq] at ht; subst ht
          exact absurd ⟨_, _, _, rfl⟩ hp
        · rfl
      rw [hrf, none0]
      rcases step_client_target s hs hl hk ht (by intro up rd wr e; exact hp ⟨up, rd, wr, e⟩) with g | g <;> rw [g]
  · have hrf : readFrom c s = [] := by
      unfold readFrom
      split
      · split
        · rename_i e; subst e; exact absurd rfl ht
        · rfl
      · rfl
    rw [hrf, none0]
    exact (step_ext h.e.d env s hs c ht).susp

end Conman
