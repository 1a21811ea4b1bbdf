import Verif.Lemma.WorldQuiet
import Verif.Spec.Screen

/-
What a client is sent: helper lemmas for C93.
-/
namespace Conman
open Spec

/-- The client `o` becomes `o'`; unless it is at its end, by adding `evs` to what waits. -/
structure ShowAdd (evs : List ShowEv) (o o' : Obj) : Prop where
  kind : o'.kind = o.kind
  eof : o'.eof = false → o.eof = false
  cap : o'.pend.length ≤ queueCap
  pend : o'.eof = false → o'.pend = lastN queueCap (o.pend ++ evs.flatMap ShowEv.bytes)

theorem ShowAdd.same {o o' : Obj} (hc : o.pend.length ≤ queueCap) (h1 : o'.kind = o.kind) (h2 : o'.eof = false → o.eof = false)
    (h3 : o'.pend = o.pend) : ShowAdd [] o o' :=
  ⟨h1, h2, by rw [h3]; exact hc, fun _ => by rw [h3, List.flatMap_nil, List.append_nil, lastN_self _ _ hc]⟩

theorem ShowAdd.trans {a b : List ShowEv} {x y z : Obj} (h : ShowAdd a x y) (h' : ShowAdd b y z) : ShowAdd (a ++ b) x z :=
  ⟨by rw [h'.kind, h.kind], fun e => h.eof (h'.eof e), h'.cap, fun e => by
    rw [h'.pend e, h.pend (h'.eof e), lastN_append_lastN, List.append_assoc, List.flatMap_append]⟩

/-- Some entries without console output; with replays only if `b`. -/
def Shows (env : Env) (b : Bool) (o o' : Obj) : Prop := ∃ evs, (∀ e ∈ evs, e.Ok env ∧ (b = false → e.isReplay = false)) ∧ evs.flatMap ShowEv.outs = [] ∧ ShowAdd evs o o'

theorem Shows.same {env : Env} {b : Bool} {o o' : Obj} (hc : o.pend.length ≤ queueCap) (h1 : o'.kind = o.kind) (h2 : o'.eof = false → o.eof = false)
    (h3 : o'.pend = o.pend) : Shows env b o o' := ⟨[], by simp, rfl, .same hc h1 h2 h3⟩

theorem Shows.trans {env : Env} {b : Bool} {x y z : Obj} (h : Shows env b x y) (h' : Shows env b y z) : Shows env b x z := by
  obtain ⟨a, a1, a2, a3⟩ := h
  obtain ⟨b, b1, b2, b3⟩ := h'
  refine ⟨a ++ b, fun e he => ?_, by rw [List.flatMap_append, a2, b2]; rfl, a3.trans b3⟩
  rcases List.mem_append.1 he with g | g
  · exact a1 e g
  · exact b1 e g

theorem Shows.cap {env : Env} {b : Bool} {o o' : Obj} (h : Shows env b o o') : o'.pend.length ≤ queueCap := by
  obtain ⟨_, _, _, h⟩ := h; exact h.cap

theorem Shows.kind {env : Env} {b : Bool} {o o' : Obj} (h : Shows env b o o') : o'.kind = o.kind := by
  obtain ⟨_, _, _, h⟩ := h; exact h.kind

theorem Shows.write {env : Env} {b' : Bool} {o : Obj} (hc : o.pend.length ≤ queueCap) (e : ShowEv) (he : e.Ok env) (hr : b' = false → e.isReplay = false) (ho : e.outs = []) (b : Bool)
    (hd : e.bytes.length ≤ queueCap) : Shows env b' o (o.write e.bytes b) := by
  rcases o.write_cases e.bytes b with g | ⟨hf, g⟩
  · rw [g]; exact .same hc rfl id rfl
  · refine ⟨[e], by simpa using ⟨he, hr⟩, by simp [ho], ?_⟩
    have hp : (o.write e.bytes b).pend = lastN queueCap (o.pend ++ e.bytes) := by rw [g]; dsimp only; rw [enq_le _ _ hd]
    refine ⟨Obj.write_kind .., fun e' => by rw [Obj.write_eof] at e'; exact e', by rw [hp]; exact lastN_len _ _, fun _ => ?_⟩
    rw [hp, List.flatMap_cons, List.flatMap_nil, List.append_nil]

theorem Passive.shows {env : Env} (hv : ShowEnv env) {b : Bool} {o o' : Obj} (h : Passive env o o') : o.pend.length ≤ queueCap → Shows env b o o' := by
  induction h with
  | refl => exact fun hc => .same hc rfl id rfl
  | trans _ _ h1 h2 => exact fun hc => (h1 hc).trans (h2 (h1 hc).cap)
  | info o n t _ => exact fun hc => .write hc (.note (env.txt n t)) ⟨n, t, rfl⟩ (fun _ => rfl) rfl true (hv.txt n t)
  | links => exact fun hc => .same hc rfl id rfl
  | orphan => exact fun hc => .same hc rfl (by simp) rfl

theorem Ext.shows {env : Env} (hv : ShowEnv env) {b b' : Bool} {o o' : Obj} (h : Ext env b' o o') : b' = false → o.pend.length ≤ queueCap →
    Shows env b o o' := by
  induction h with
  | refl => exact fun _ hc => .same hc rfl id rfl
  | trans _ _ h1 h2 => exact fun hb hc => (h1 hb hc).trans (h2 hb (h1 hb hc).cap)
  | pass p => exact fun _ => p.shows hv
  | reset => exact fun _ hc => .same hc rfl id rfl
  | data _ _ h => intro hb; rw [h] at hb; simp at hb
  | log _ _ _ h => intro hb; rw [h] at hb; simp at hb

theorem COwn.shows {env : Env} (hv : ShowEnv env) {b p : Bool} {o o' : Obj} (h : COwn env b p o o') : p = false → o.pend.length ≤ queueCap →
    Shows env b o o' := by
  induction h with
  | refl => exact fun _ hc => .same hc rfl id rfl
  | trans _ _ h1 h2 => exact fun hb hc => (h1 hb hc).trans (h2 hb (h1 hb hc).cap)
  | pass p => exact fun _ => p.shows hv
  | data o d hb h =>
    intro _ hc
    rcases h with ⟨con, k, rfl⟩ | ⟨n, k, rfl⟩
    · exact .write hc (.replay (env.replay con k)) ⟨con, k, rfl⟩ (fun g => by rw [g] at hb; simp at hb) rfl false (hv.replay con k)
    · exact .write hc (.note (env.txt n k)) ⟨n, k, rfl⟩ (fun _ => rfl) rfl false (hv.txt n k)
  | quiet => exact fun _ hc => .same hc rfl id rfl
  | flags => exact fun _ hc => .same hc rfl id rfl
  | susp => exact fun _ hc => .same hc rfl id rfl
  | eofRead => exact fun _ hc => .same hc rfl (by simp) rfl
  | push _ _ h => intro hp; rw [h] at hp; simp at hp
  | drain => exact fun _ hc => .same hc rfl id rfl

/-- What one step does to a client that stays. -/
theorem show_step {env : Env} (hv : ShowEnv env) {w w' : World} (h : FInv w) (s : Step) (hs : w.step env s = some w') (c : Nat)
    (hl : c ∈ w.live) (hk : (w.obj c).kind = .client)
    (hlen : ∀ i up d wr, s = .poll i up (some (.data d)) wr → d.length ≤ 8191)
    (hl' : c ∈ w'.live) (he' : (w'.obj c).eof = false) :
    (w'.obj c).kind = .client ∧ (w.obj c).eof = false ∧
    ∃ (evs : List ShowEv) (x : List UInt8), (∀ e ∈ evs, ShowEv.Ok env e ∧ ((wireCommands (w.obj c).gotEscape (readFrom c s)).any isSelf = false → e.isReplay = false)) ∧
      evs.flatMap ShowEv.outs = heard w c s ∧ sentTo c w'.fx = sentTo c w.fx ++ x ∧
      x ++ (w'.obj c).pend = lastN queueCap ((w.obj c).pend ++ evs.flatMap ShowEv.bytes) := by
  have x0 := h.x c hl
  have hcap := (h.e.d.inv.oi c).cap
  have hself0 : lastN queueCap ((w.obj c).pend ++ []) = (w.obj c).pend := by
    rw [List.append_nil]; exact lastN_self _ _ hcap
  have quietFx : (∀ up rd wr, s ≠ .poll c up rd (some wr)) → sentTo c w'.fx = sentTo c w.fx := by
    intro hn
    obtain ⟨l, e1, e2⟩ := step_sent env s hs
    rw [e1, sentTo_append, sentTo_none c l, List.append_nil]
    intro d hd
    obtain ⟨_, up, rd, wr, e⟩ := e2 c d hd
    exact hn up rd wr e
  have hk' : (w'.obj c).kind = .client := by rw [(step_live h.e.d s hs).2.2 c hl]; exact hk
  have he : (w.obj c).eof = false := by
    cases hh : (w.obj c).eof with
    | false => rfl
    | true =>
      rcases eof_step h s hs c hl hh with ⟨_, g, _⟩ | ⟨g, up, rd, wr, rfl, _⟩
      · rw [g] at he'; simp at he'
      · rcases poll_cown h.e.d env c up rd wr hk hs with q | q
        · exact absurd hl' q
        · rw [q.gen] at g; omega
  refine ⟨hk', he, ?_⟩
  -- no data, nothing sent
  have fin : sentTo c w'.fx = sentTo c w.fx → heard w c s = [] → Shows env ((wireCommands (w.obj c).gotEscape (readFrom c s)).any isSelf) (w.obj c) (w'.obj c) →
      ∃ (evs : List ShowEv) (x : List UInt8), (∀ e ∈ evs, ShowEv.Ok env e ∧ ((wireCommands (w.obj c).gotEscape (readFrom c s)).any isSelf = false → e.isReplay = false)) ∧
      evs.flatMap ShowEv.outs = heard w c s ∧ sentTo c w'.fx = sentTo c w.fx ++ x ∧
      x ++ (w'.obj c).pend = lastN queueCap ((w.obj c).pend ++ evs.flatMap ShowEv.bytes) := by
    rintro h1 h2 ⟨evs, a, b, d⟩
    exact ⟨evs, [], a, by rw [b, h2], by rw [h1, List.append_nil], by rw [List.nil_append]; exact d.pend he'⟩
  by_cases ht : s.target = some c
  · by_cases hp : ∃ up rd wr, s = .poll c up rd wr
    · obtain ⟨up, rd, wr, rfl⟩ := hp
      have hheard : heard w c (.poll c up rd wr) = [] := by
        unfold heard
        split
        · rename_i heq
          simp only [Step.poll.injEq] at heq
          obtain ⟨rfl, -, -, -⟩ := heq
          rw [if_neg]
          rintro ⟨hm, -⟩
          exact not_client_of_console (h.e.d.inv.l.client_writers hk hm) hk
        · rfl
      have ci := h.e.cl c hl hk
      simp only [World.step] at hs
      rw [if_neg (by simp [hl, ci.pin he])] at hs
      simp only [Option.map_eq_some_iff] at hs
      obtain ⟨w1, h1, h2⟩ := hs
      by_cases hl1 : c ∈ w1.live
      case neg => rw [if_pos hl1] at h2; subst h2; exact absurd hl' hl1
      rw [if_neg (by simp [hl1])] at h2
      have n1 : NoSent w w1 := by
        cases rd with
        | none => simp only [Option.some.injEq] at h1; subst h1; exact .refl _
        | some r => exact read_ns env up c r h1
      have i1 : WInv w1 ∧ COwn env ((wireCommands (w.obj c).gotEscape (readFrom c (.poll c up rd wr))).any isSelf) false (w.obj c) (w1.obj c) := by
        cases rd with
        | none => simp only [Option.some.injEq] at h1; subst h1; exact ⟨h.e.d.inv, .refl _⟩
        | some r =>
          refine ⟨(read_inv h.e.d.inv env up c r h1).1, ?_⟩
          rcases read_cown h.e.d.inv env up c r hk h1 with g | g
          · exact absurd hl1 g
          · have : selfData (w.obj c) (some r) = (wireCommands (w.obj c).gotEscape (readFrom c (.poll c up (some r) wr))).any isSelf := by
              cases r with
              | data d =>
                have hd := hlen c up d wr rfl
                have e : readFrom c (.poll c up (some (.data d)) wr) = d := by simp [readFrom]
                rw [e, ← cmdsOf_wire _ d hd]
                rfl
              | _ => rfl
            rw [this] at g; exact g
      obtain ⟨i1, i2⟩ := i1
      obtain ⟨evs, a1, a2, a3⟩ := i2.shows hv rfl hcap
      split at h2
      · subst h2
        exact fin (n1.sentTo c) hheard ⟨evs, a1, a2, a3⟩
      · rename_i r _
        have hx1 := XInv.own i2 hk x0
        have hnp : (w1.obj c).conn ≠ .pending := by
          intro hpd; have := (hx1.1.pending hpd).1; rw [hx1.2] at this; simp at this
        obtain ⟨n, f1, f2, f3, f4⟩ := flush_self i1 env up c r (hx1.1.client hx1.2) hnp
        subst h2
        rcases f4 with ⟨g1, g2, g3, g4, g5⟩ | ⟨_, _, g⟩
        · refine ⟨evs, (w1.obj c).pend.take n, a1, by rw [a2, hheard], by rw [f2, n1.sentTo c], ?_⟩
          rw [g2, List.take_append_drop]
          exact a3.pend (by rw [← g3]; exact he')
        · exact absurd hl' (g hx1.2)
    · have hheard : heard w c s = [] := by
        unfold heard
        split
        · rename_i i up d wr
          simp only [Step.target, Option.some.injEq] at ht; subst ht
          exact absurd ⟨_, _, _, rfl⟩ hp
        · rfl
      have hfx := quietFx (fun up rd wr e => hp ⟨up, rd, some wr, e⟩)
      rcases step_client_target s hs hl hk ht (by intro up rd wr e; exact hp ⟨up, rd, wr, e⟩) with g | g
      · exact fin hfx hheard (by rw [g]; exact .same hcap rfl id rfl)
      · exact fin hfx hheard (by rw [g]; exact .same hcap rfl id rfl)
  · have hfx : sentTo c w'.fx = sentTo c w.fx := quietFx (by rintro up rd wr rfl; exact ht rfl)
    have plain : dataTo w s c = false → heard w c s = [] →
        ∃ (evs : List ShowEv) (x : List UInt8), (∀ e ∈ evs, ShowEv.Ok env e ∧ ((wireCommands (w.obj c).gotEscape (readFrom c s)).any isSelf = false → e.isReplay = false)) ∧
      evs.flatMap ShowEv.outs = heard w c s ∧ sentTo c w'.fx = sentTo c w.fx ++ x ∧
        x ++ (w'.obj c).pend = lastN queueCap ((w.obj c).pend ++ evs.flatMap ShowEv.bytes) := by
      intro hd hh
      exact fin hfx hh ((step_ext h.e.d env s hs c ht).shows hv hd hcap)
    cases s with
    | poll i up rd wr =>
      cases rd with
      | none => exact plain rfl rfl
      | some r =>
        cases r with
        | eof => exact plain rfl rfl
        | again => exact plain rfl rfl
        | err => exact plain rfl rfl
        | data d =>
          have hci : c ≠ i := by rintro rfl; exact ht rfl
          have hd := hlen i up d wr rfl
          by_cases hm : i ∈ (w.obj c).writers
          case neg =>
            apply plain
            · unfold dataTo
              dsimp only
              split
              · rw [hk]; rfl
              · have : c ∉ (w.obj i).readers := fun g => hm ((h.e.d.inv.l.sym i c).1 g)
                simpa using this
            · rw [heard_data, if_neg (fun g => hm g.1)]
          have hrd : c ∈ (w.obj i).readers := (h.e.d.inv.l.sym i c).2 hm
          have hcon := h.e.d.inv.l.client_writers hk hm
          have hil : i ∈ w.live := (h.e.d.inv.l.live i c hrd).1
          simp only [World.step] at hs
          by_cases hpp : (w.obj i).pin = true ∨ (w.obj i).pout = true
          case neg =>
            rw [if_pos (Or.inr (by simpa using hpp))] at hs
            simp only [Option.some.injEq] at hs
            have hh : heard w c (.poll i up (some (.data d)) wr) = [] := by
              rw [heard_data, if_neg (fun g => hpp g.2)]
            exact fin hfx hh (by rw [← hs]; exact .same hcap rfl id rfl)
          rw [if_neg (by rcases hpp with g | g <;> simp [hil, g])] at hs
          simp only [Option.map_eq_some_iff] at hs
          obtain ⟨w1, h1, h2⟩ := hs
          have i1 := read_inv h.e.d.inv env up i (.data d) h1
          have hfd : (w.obj i).fd = true := by
            cases hf : (w.obj i).fd with
            | true => rfl
            | false =>
              have := (h.e.d.inv.oi i).closed hf
              rcases hpp with g | g
              · rw [this.1] at g; simp at g
              · rw [this.2] at g; simp at g
          -- the read
          have rdd : (w1.obj c).pend = lastN queueCap ((w.obj c).pend ++ heard w c (.poll i up (some (.data d)) wr)) := by
            have wr1 : ∀ (e : List UInt8) (v : World), LInv v → v.obj c = w.obj c → c ∈ (v.obj i).readers → e.length ≤ queueCap →
                ((v.deliver env i e).obj c).pend = lastN queueCap ((w.obj c).pend ++ e) := by
              intro e v hv hvc hvr hel
              by_cases h0 : e = []
              · subst h0; rw [deliver_nil, hvc, hself0]
              · rw [(deliver_exact hv env i e h0).1, if_pos hvr, hvc, if_neg (by rw [hk]; simp)]
                rw [Obj.write_data_pend _ _ he hcap, enq_le _ _ hel]
            unfold World.read at h1
            rw [if_neg (by simp [hfd])] at h1
            rw [heard_data, if_pos ⟨hm, hpp⟩]
            by_cases htel : (w.obj i).kind = .telnet
            · rw [if_pos htel]
              by_cases hup : (w.obj i).conn = .up
              · rw [if_pos hup]
                rw [if_neg (by simp [hup]), if_neg (by rw [htel]; simp)] at h1
                simp only [htel, Option.map_eq_some_iff] at h1
                rw [List.take_of_length_le (by rw [readBufSize_eq]; exact hd)] at h1
                obtain ⟨t, ht1, rfl⟩ := h1
                obtain ⟨t', e1, e2⟩ := tel_ok (h.x i hil).iac d
                rw [ht1, Option.some.injEq] at e1
                subst e1
                rw [e2]
                have hsl : SL w (w.mod i (fun o => ({ o with iac := t.iac }).write t.sent false)) := by
                  refine ⟨fun j => ?_, rfl⟩
                  rw [World.mod_obj]; split
                  · rename_i e; subst e; simp
                  · exact ⟨rfl, rfl, rfl⟩
                have hlen' : (t.buf.take t.len).length ≤ 8191 := by
                  have ht' := telLoop_eq d 0 0 (w.obj i).iac [] (by omega) (by omega)
                  unfold processTelnetEscapes at ht1
                  rw [ht1, List.drop_zero] at ht'
                  cases hr : telRef (w.obj i).iac d with
                  | none => simp [hr, TelOut.trip] at ht'
                  | some r =>
                    simp only [hr, TelOut.trip] at ht'
                    rw [List.length_take]; omega
                exact wr1 _ _ (h.e.d.inv.l.same hsl) (World.mod_ne _ _ hci) (by rw [World.mod_self]; simpa using hrd)
                  (by unfold queueCap; omega)
              · rw [if_neg hup, hself0]
                rw [if_pos ⟨htel, hup⟩] at h1
                simp only [Option.some.injEq] at h1; subst h1
                rfl
            · rw [if_neg htel]
              rw [if_neg (fun g => htel g.1), if_neg (by intro hlg; rw [hlg] at hcon; simp [OKind.isConsole] at hcon)] at h1
              dsimp only at h1
              rw [List.take_of_length_le (by rw [readBufSize_eq]; exact hd)] at h1
              split at h1
              · rename_i hkc; rw [hkc] at hcon; simp [OKind.isConsole] at hcon
              · rename_i hkc; exact absurd hkc htel
              · simp only [Option.some.injEq] at h1; subst h1
                exact wr1 d w h.e.d.inv.l rfl hrd (by unfold queueCap; omega)
          -- the flush adds messages only
          have fl : Shows env false (w1.obj c) (w'.obj c) := by
            have hc1 : (w1.obj c).pend.length ≤ queueCap := (i1.1.oi c).cap
            split at h2
            · subst h2; exact .same hc1 rfl id rfl
            split at h2
            · subst h2; exact .same hc1 rfl id rfl
            · subst h2
              exact (flush_estep i1.1 env up i _ (fun _ => false) c hci).shows hv rfl hc1
          obtain ⟨evs, a1, a2, a3⟩ := fl
          refine ⟨.out (heard w c (.poll i up (some (.data d)) wr)) :: evs, [], ?_, ?_, by rw [hfx, List.append_nil], ?_⟩
          · intro e hem
            rcases List.mem_cons.1 hem with rfl | g
            · exact ⟨trivial, fun _ => rfl⟩
            · exact ⟨(a1 e g).1, fun _ => (a1 e g).2 rfl⟩
          · rw [List.flatMap_cons, a2, List.append_nil]; rfl
          · rw [List.nil_append, a3.pend he', rdd, lastN_append_lastN, List.append_assoc, List.flatMap_cons]; rfl
    | _ => exact plain rfl rfl

/-- The same for a history. -/
theorem show_run {env : Env} (hv : ShowEnv env) (c : Nat) (ss : List Step) : ∀ {w w' : World}, FInv w → w.run env ss = some w' →
    c ∈ w.live → (w.obj c).kind = .client → ss.all (noGrant c) = true →
    (∀ i up d wr, .poll i up (some (.data d)) wr ∈ ss → d.length ≤ 8191) → c ∈ w'.live → (w'.obj c).eof = false →
    ∃ (evs : List ShowEv) (x : List UInt8), (∀ e ∈ evs, ShowEv.Ok env e ∧
        ((wireCommands (w.obj c).gotEscape (ss.flatMap (readFrom c))).any isSelf = false → e.isReplay = false)) ∧ evs.flatMap ShowEv.outs = heardAll env w c ss ∧ sentTo c w'.fx = sentTo c w.fx ++ x ∧
      (x ++ (w'.obj c).pend).Sublist ((w.obj c).pend ++ evs.flatMap ShowEv.bytes) ∧
      (keepsUp env w c ss = true → x ++ (w'.obj c).pend = (w.obj c).pend ++ evs.flatMap ShowEv.bytes) := by
  induction ss with
  | nil =>
    intro w w' _ hr _ _ _ _ _ _
    simp only [World.run, Option.some.injEq] at hr; subst hr
    exact ⟨[], [], by simp, rfl, by simp, by simp, by simp⟩
  | cons s ss ih =>
    intro w w' h hr hl hk hng hlen hl' he'
    simp only [World.run, Option.bind_eq_some_iff] at hr
    obtain ⟨w1, h1, h2⟩ := hr
    simp only [List.all_cons, Bool.and_eq_true] at hng
    have h3 := (h.step s h1).tick (w1.tick + 1)
    have hl1 : c ∈ w1.live := by
      by_cases g : c ∈ w1.live
      · exact g
      · exact absurd hl' (run_gone (w := { w1 with tick := w1.tick + 1 }) c ss h3.e h2 hng.2 g)
    have hkd : (w1.obj c).kind = .client := by rw [(step_live h.e.d s h1).2.2 c hl]; exact hk
    have he1 : (w1.obj c).eof = false := by
      cases hh : (w1.obj c).eof with
      | false => rfl
      | true =>
        have hrs : ∀ t ∈ ss, (readFrom c t).length ≤ 8191 := by
          intro t ht
          unfold readFrom
          split
          · split
            · exact hlen _ _ _ _ (List.mem_cons_of_mem _ ht)
            · simp
          · simp
        have := (run_mode (w := { w1 with tick := w1.tick + 1 }) c ss h3.e h2 hng.2 hrs hl1 hkd hl').2.1 hh
        rw [this] at he'; simp at he'
    have hrf : (readFrom c s).length ≤ 8191 := by
      unfold readFrom
      split
      · split
        · exact hlen _ _ _ _ List.mem_cons_self
        · simp
      · simp
    have hgs : (w1.obj c).gotEscape = (unescRef (w.obj c).gotEscape (readFrom c s)).1 :=
      ((step_mode h.e s h1 c hl hk hrf hl1).2.2 he1).esc
    have hsplit : (wireCommands (w.obj c).gotEscape ((s :: ss).flatMap (readFrom c))) =
        wireCommands (w.obj c).gotEscape (readFrom c s) ++ wireCommands (w1.obj c).gotEscape (ss.flatMap (readFrom c)) := by
      rw [List.flatMap_cons, ← (unescRef_wire _ _).2, ← (unescRef_wire _ _).2, ← (unescRef_wire _ _).2, unescRef_append, hgs]
    obtain ⟨q1, q3, evs, x, q4, q5, q6, q7⟩ := show_step hv h s h1 c hl hk (fun i up d wr e => hlen i up d wr (by simp [e])) hl1 he1
    obtain ⟨evs', y, r1, r2, r3, r4, r5⟩ := ih (w := { w1 with tick := w1.tick + 1 }) h3 h2 hl1 q1 hng.2 (fun i up d wr hm => hlen i up d wr (by simp [hm])) hl' he'
    have e : heardAll env w c (s :: ss) = heard w c s ++ heardAll env { w1 with tick := w1.tick + 1 } c ss := by
      rw [heardAll, h1]
    refine ⟨evs ++ evs', x ++ y, ?_, ?_, ?_, ?_, ?_⟩
    · intro f hf
      rw [hsplit, List.any_append, Bool.or_eq_false_iff]
      rcases List.mem_append.1 hf with g | g
      · exact ⟨(q4 f g).1, fun a => (q4 f g).2 a.1⟩
      · exact ⟨(r1 f g).1, fun a => (r1 f g).2 a.2⟩
    · rw [List.flatMap_append, q5, r2, e]
    · rw [r3, ← List.append_assoc, ← q6]
    · rw [List.append_assoc, List.flatMap_append, ← List.append_assoc (w.obj c).pend]
      refine (List.Sublist.append_left r4 x).trans ?_
      rw [← List.append_assoc]
      refine List.Sublist.append_right ?_ _
      show (x ++ (w1.obj c).pend).Sublist _
      rw [q7]
      exact List.drop_sublist _ _
    · intro hf
      unfold keepsUp at hf
      rw [h1] at hf
      dsimp only at hf
      rw [Bool.and_eq_true, decide_eq_true_eq] at hf
      rw [List.append_assoc, r5 hf.2]
      show x ++ ((w1.obj c).pend ++ _) = _
      have hlt : (lastN queueCap ((w.obj c).pend ++ evs.flatMap ShowEv.bytes)).length < queueCap := by
        rw [← q7, List.length_append]
        have := hf.1
        rw [q6, List.length_append] at this
        omega
      have hid : lastN queueCap ((w.obj c).pend ++ evs.flatMap ShowEv.bytes) = (w.obj c).pend ++ evs.flatMap ShowEv.bytes := by
        apply lastN_self
        unfold lastN at hlt
        rw [List.length_drop] at hlt
        omega
      rw [hid] at q7
      rw [← List.append_assoc, q7, List.flatMap_append, List.append_assoc]

end Conman
