import Verif.Lemma.WorldMore

/-
Read-write mode of a client over a history.
-/
namespace Conman
open Spec

theorem Ext.gotEscape {b : Bool} {o o' : Obj} (h : Ext env b o o') : o'.gotEscape = o.gotEscape ∧ o'.bcast = o.bcast := by
  induction h with
  | refl => exact ⟨rfl, rfl⟩
  | trans _ _ h1 h2 => exact ⟨by rw [h2.1, h1.1], by rw [h2.2, h1.2]⟩
  | pass p => exact ⟨p.same.gotEscape, p.same.bcast⟩
  | reset => exact ⟨rfl, rfl⟩
  | data o d _ => exact ⟨(SameFlags.write o d false).gotEscape, (SameFlags.write o d false).bcast⟩
  | log => exact ⟨rfl, rfl⟩

theorem COwn.eofStays {b p : Bool} {o o' : Obj} (h : COwn env b p o o') : o.eof = true → o'.eof = true := by
  induction h with
  | refl => exact id
  | trans _ _ h1 h2 => exact fun h => h2 (h1 h)
  | pass p => exact p.eofStays
  | data o d _ => intro h; simpa using h
  | quiet => exact id
  | flags => exact id
  | susp => exact id
  | eofRead => exact fun _ => rfl
  | push => exact id
  | drain => exact id

theorem flush_mode {w : World} (env : Env) (up : Bool) (c : Nat) (r : WriteRes)
    (hk : (w.obj c).kind = .client) :
    c ∉ (w.flush env up c r).live ∨
      (((w.flush env up c r).obj c).readers = (w.obj c).readers ∧ ((w.flush env up c r).obj c).gotEscape = (w.obj c).gotEscape ∧
        ((w.flush env up c r).obj c).bcast = (w.obj c).bcast ∧ ((w.flush env up c r).obj c).eof = (w.obj c).eof) := by
  unfold World.flush
  dsimp only
  split
  · exact Or.inr ⟨rfl, rfl, rfl, rfl⟩
  rename_i hf
  have hf : (w.obj c).fd = true := by simpa using hf
  split
  · exact Or.inr ⟨rfl, rfl, rfl, rfl⟩
  have s1 := push_ws w c (r.count (w.obj c).pend.length)
  have s2 := drained_ws (w.push c (r.count (w.obj c).pend.length)) c
  have hf1 : (((w.push c (r.count (w.obj c).pend.length)).drained c).obj c).fd = true := by
    unfold World.drained
    split
    · rw [World.mod_self]; unfold World.push; rw [World.mod_self]; exact hf
    · unfold World.push; rw [World.mod_self]; exact hf
  split
  · exact Or.inl (shutdown_client env up c hf1 (by rw [(s2.loc c).kind, (s1.loc c).kind]; exact hk))
  · right
    unfold World.drained
    split
    · rw [World.mod_self]; unfold World.push; rw [World.mod_self]; exact ⟨rfl, rfl, rfl, rfl⟩
    · unfold World.push; rw [World.mod_self]; exact ⟨rfl, rfl, rfl, rfl⟩

/-- What a step does to the mode of a client that is not at end-of-file afterwards. -/
structure ModeStep (o o' : Obj) (d : List UInt8) : Prop where
  bcast : o'.bcast = o.bcast
  esc : o'.gotEscape = (unescRef o.gotEscape d).1
  bc : o.bcast = true → o'.readers = o.readers
  mode : o.bcast = false → decide (o'.readers ≠ []) = modeAfter (decide (o.readers ≠ [])) (unescRef o.gotEscape d).2.2

theorem ModeStep.same {o o' : Obj} (h1 : o'.readers = o.readers) (h2 : o'.gotEscape = o.gotEscape) (h3 : o'.bcast = o.bcast) :
    ModeStep o o' [] := ⟨h3, h2, fun _ => h1, fun _ => by rw [h1]; rfl⟩

theorem modeAfter_append (m : Bool) (a b : List UInt8) : modeAfter m (a ++ b) = modeAfter (modeAfter m a) b := by
  unfold modeAfter; rw [List.foldl_append]

theorem ModeStep.trans {a b c : Obj} {d e : List UInt8} (h : ModeStep a b d) (h' : ModeStep b c e) : ModeStep a c (d ++ e) := by
  refine ⟨by rw [h'.bcast, h.bcast], ?_, fun hb => ?_, fun hb => ?_⟩
  · rw [h'.esc, h.esc, unescRef_append]
  · rw [h'.bc (by rw [h.bcast]; exact hb), h.bc hb]
  · rw [h'.mode (by rw [h.bcast]; exact hb), h.mode hb, h.esc, unescRef_append, modeAfter_append]

theorem step_mode {env : Env} {w w' : World} (h : EInv w) (s : Step) (hs : w.step env s = some w') (c : Nat)
    (hl : c ∈ w.live) (hk : (w.obj c).kind = .client) (hlen : (readFrom c s).length ≤ 8191) (hl' : c ∈ w'.live) :
    (w'.obj c).kind = .client ∧ ((w.obj c).eof = true → (w'.obj c).eof = true) ∧
    ((w'.obj c).eof = false → ModeStep (w.obj c) (w'.obj c) (readFrom c s)) := by
  have hkk := (step_live h.d s hs).2.2 c hl
  refine ⟨by rw [hkk]; exact hk, ?_⟩
  by_cases ht : s.target = some c
  · by_cases hp : ∃ up rd wr, s = .poll c up rd wr
    · obtain ⟨up, rd, wr, rfl⟩ := hp
      have ci := h.cl c hl hk
      constructor
      · rcases poll_cown h.d env c up rd wr hk hs with g | g
        · exact absurd hl' g
        · exact g.eofStays
      intro he'
      have he : (w.obj c).eof = false := by
        cases hh : (w.obj c).eof with
        | false => rfl
        | true =>
          rcases poll_cown h.d env c up rd wr hk hs with g | g
          · exact absurd hl' g
          · rw [g.eofStays hh] at he'; simp at he'
      simp only [World.step] at hs
      rw [if_neg (by simp [hl, ci.pin he])] at hs
      simp only [Option.map_eq_some_iff] at hs
      obtain ⟨w1, h1, h2⟩ := hs
      by_cases hl1 : c ∈ w1.live
      case neg =>
        rw [if_pos hl1] at h2; subst h2; exact absurd hl' hl1
      rw [if_neg (by simp [hl1])] at h2
      have hk1 : (w1.obj c).kind = .client := by
        cases rd with
        | none => simp only [Option.some.injEq] at h1; subst h1; exact hk
        | some r => rw [(read_inv h.d.inv env up c r h1).2.kind]; exact hk
      -- the flush
      have fl : (w'.obj c).readers = (w1.obj c).readers ∧ (w'.obj c).gotEscape = (w1.obj c).gotEscape ∧
          (w'.obj c).bcast = (w1.obj c).bcast ∧ (w'.obj c).eof = (w1.obj c).eof := by
        split at h2
        · subst h2; exact ⟨rfl, rfl, rfl, rfl⟩
        · rename_i r _
          subst h2
          rcases flush_mode (w := w1) env up c r hk1 with g | g
          · exact absurd hl' g
          · exact g
      have he1 : (w1.obj c).eof = false := by rw [← fl.2.2.2]; exact he'
      have rd1 : ModeStep (w.obj c) (w1.obj c) (readFrom c (.poll c up rd wr)) := by
        cases rd with
        | none => simp only [Option.some.injEq] at h1; subst h1; exact .same rfl rfl rfl
        | some r =>
          simp only at h1
          unfold World.read at h1
          rw [if_neg (by simp [ci.fd]), if_neg (by simp [hk]), if_neg (by rw [hk]; simp)] at h1
          cases r with
          | again => simp only [Option.some.injEq] at h1; subst h1; exact .same rfl rfl rfl
          | err =>
            simp only [Option.some.injEq] at h1; subst h1
            exact absurd hl1 (shutdown_client env up c ci.fd hk)
          | eof =>
            simp only [Option.some.injEq] at h1
            split at h1
            · subst h1
              refine absurd hl1 (shutdown_client env up c ?_ ?_)
              · rw [World.mod_self]; exact ci.fd
              · rw [World.mod_self]; exact hk
            · subst h1
              rw [World.mod_self] at he1; simp at he1
          | data d =>
            have hd : d.length ≤ 8191 := by simpa [readFrom] using hlen
            have hrf : readFrom c (.poll c up (some (.data d)) wr) = d := by simp [readFrom]
            have htk : d.take readBufSize = d := List.take_of_length_le (by
              have : readBufSize = 8191 := rfl
              omega)
            rw [hrf]
            simp only [hk, Option.map_eq_some_iff] at h1
            obtain ⟨w2, g1, g2⟩ := h1
            rw [htk] at g1 g2
            have hu := processClientEscapes_eq (w.obj c).gotEscape d
            have ha : (processClientEscapes (w.obj c).gotEscape d).acts = (unescRef (w.obj c).gotEscape d).2.2 := by
              rw [← hu]
            have hg : (processClientEscapes (w.obj c).gotEscape d).gotEscape = (unescRef (w.obj c).gotEscape d).1 := by
              rw [← hu]
            rw [ha] at g1
            obtain ⟨i1, i2, i3, i4, i5, i6, i7⟩ := acts_links env c _ h.d.inv hk g1
            have hi2 := (acts_inv env c none (by simp) _ h.d.inv hk g1).1
            have hw1 : w1.obj c = { w2.obj c with gotEscape := (unescRef (w.obj c).gotEscape d).1 } := by
              rw [← g2, deliver_other env c _ ?_, World.mod_self, hg]
              rw [World.mod_self]
              intro hm
              have hm : c ∈ (w2.obj c).readers := hm
              have hk2 : (w2.obj c).kind = .client := by rw [(acts_inv env c none (by simp) _ h.d.inv hk g1).2.kind]; exact hk
              exact not_client_of_console (hi2.l.client_readers hk2 hm) hk2
            rw [hw1]
            exact ⟨i3, rfl, i6, i7⟩
      exact ⟨by rw [fl.2.2.1, rd1.bcast], by rw [fl.2.1, rd1.esc], fun hb => by rw [fl.1, rd1.bc hb],
        fun hb => by rw [fl.1, rd1.mode hb]⟩
    · have hrf : readFrom c s = [] := by
        unfold readFrom
        split
        · rename_i i up d wr
          split
          · rename_i e; subst e; exact absurd ⟨up, some (.data d), wr, rfl⟩ hp
          · rfl
        · rfl
      rw [hrf]
      rcases step_client_target s hs hl hk ht (by intro up rd wr e; exact hp ⟨up, rd, wr, e⟩) with g | g
      · rw [g]; exact ⟨id, fun _ => .same rfl rfl rfl⟩
      · rw [g]; exact ⟨id, fun _ => .same rfl rfl rfl⟩
  · have hrf : readFrom c s = [] := by
      unfold readFrom
      split
      · rename_i i up d wr
        split
        · rename_i e; subst e; exact absurd rfl ht
        · rfl
      · rfl
    rw [hrf]
    have k := (step_links h.d s hs).1 c ht hk
    have e := (step_ext h.d env s hs c ht).gotEscape
    exact ⟨k.eof, fun he => .same (k.links he).1 e.1 e.2⟩

theorem run_gone {env : Env} (c : Nat) (ss : List Step) : ∀ {w w' : World}, EInv w → w.run env ss = some w' →
    ss.all (noGrant c) = true → c ∉ w.live → c ∉ w'.live := by
  induction ss with
  | nil => intro w w' _ hr _ hc; simp only [World.run, Option.some.injEq] at hr; subst hr; exact hc
  | cons s ss ih =>
    intro w w' h hr hn hc
    simp only [World.run, Option.bind_eq_some_iff] at hr
    obtain ⟨w1, h1, h2⟩ := hr
    rw [List.all_cons, Bool.and_eq_true] at hn
    have e1 := h.step s h1
    refine ih (w := { w1 with tick := w1.tick + 1 }) ⟨e1.d.tick _, e1.cl⟩ h2 hn.2 (fun hl => ?_)
    rcases (step_live h.d s h1).1 c hl with g | ⟨k, q, rfl, _⟩
    · exact hc g
    · simp [noGrant] at hn

/-- Over a history. -/
theorem run_mode {env : Env} (c : Nat) (ss : List Step) : ∀ {w w' : World}, EInv w → w.run env ss = some w' →
    ss.all (noGrant c) = true → (∀ s ∈ ss, (readFrom c s).length ≤ 8191) →
    c ∈ w.live → (w.obj c).kind = .client → c ∈ w'.live →
    (w'.obj c).kind = .client ∧ ((w.obj c).eof = true → (w'.obj c).eof = true) ∧
    ((w'.obj c).eof = false → ModeStep (w.obj c) (w'.obj c) (ss.flatMap (readFrom c))) := by
  induction ss with
  | nil =>
    intro w w' _ hr _ _ hc hk _
    simp only [World.run, Option.some.injEq] at hr; subst hr
    exact ⟨hk, id, fun _ => .same rfl rfl rfl⟩
  | cons s ss ih =>
    intro w w' h hr hn hlen hc hk hc'
    simp only [World.run, Option.bind_eq_some_iff] at hr
    obtain ⟨w1, h1, h2⟩ := hr
    rw [List.all_cons, Bool.and_eq_true] at hn
    have e1 := h.step s h1
    have e2 : EInv ({ w1 with tick := w1.tick + 1 } : World) := ⟨e1.d.tick _, e1.cl⟩
    have hl1 : c ∈ w1.live := by
      apply Decidable.by_contra
      intro hh
      exact run_gone c ss e2 h2 hn.2 hh hc'
    obtain ⟨k1, f1, m1⟩ := step_mode h s h1 c hc hk (hlen s (by simp)) hl1
    obtain ⟨k2, f2, m2⟩ := ih e2 h2 hn.2 (fun s hs => hlen s (by simp [hs])) hl1 k1 hc'
    refine ⟨k2, fun e => f2 (f1 e), fun e => ?_⟩
    have : (w1.obj c).eof = false := by
      cases hh : (w1.obj c).eof with
      | false => rfl
      | true => rw [f2 hh] at e; simp at e
    rw [List.flatMap_cons]
    exact (m1 this).trans (m2 e)

/-- The user's view flips its mode with each switch that is sent. -/
theorem View.run_mode (ks : List Key) : ∀ v : View, (v.run ks).1.rw = modeAfter v.rw (v.run ks).2.2 ∧
    (v.bcast = true → v.rw = true → (v.run ks).1.rw = true) := by
  induction ks with
  | nil => intro v; exact ⟨rfl, fun _ h => h⟩
  | cons k ks ih =>
    intro v
    have one : (v.step k).1.rw = modeAfter v.rw (v.step k).2.2 ∧
        (v.bcast = true → v.rw = true → (v.step k).1.rw = true) ∧ (v.step k).1.bcast = v.bcast := by
      cases k with
      | data b => exact ⟨rfl, fun _ h => h, rfl⟩
      | cmd a =>
        unfold View.step
        dsimp only
        split
        · exact ⟨rfl, fun _ h => h, rfl⟩
        split
        · rename_i h
          refine ⟨?_, fun _ h => h, rfl⟩
          rcases h with rfl | rfl <;> (split <;> simp [modeAfter, isSwitch])
        split
        · rename_i h
          split
          · exact ⟨rfl, fun _ h => h, rfl⟩
          · rename_i hrw
            refine ⟨?_, fun _ _ => rfl, rfl⟩
            rcases h with rfl | rfl <;> simp [modeAfter, isSwitch, hrw]
        split
        · rename_i h
          subst h
          split
          · rename_i hb
            refine ⟨by simp [modeAfter, isSwitch, hb.1], fun h1 => absurd h1 hb.2, rfl⟩
          · exact ⟨rfl, fun _ h => h, rfl⟩
        split
        · rename_i h; subst h
          refine ⟨?_, fun _ h => h, rfl⟩
          split <;> simp [modeAfter, isSwitch]
        split
        · rename_i h; subst h
          exact ⟨by simp [modeAfter, isSwitch], fun _ h => h, rfl⟩
        split
        · rename_i h; subst h
          refine ⟨?_, fun _ h => h, rfl⟩
          split <;> simp [modeAfter, isSwitch]
        split
        · rename_i h; subst h
          exact ⟨by simp [modeAfter, isSwitch], fun _ h => h, rfl⟩
        split
        · exact ⟨rfl, fun _ h => h, rfl⟩
        · exact ⟨rfl, fun _ h => h, rfl⟩
    obtain ⟨i1, i2⟩ := ih (v.step k).1
    constructor
    · show ((v.step k).1.run ks).1.rw = modeAfter v.rw ((v.step k).2.2 ++ ((v.step k).1.run ks).2.2)
      rw [i1, one.1, modeAfter_append]
    · intro hb hr
      exact i2 (by rw [one.2.2]; exact hb) (one.2.1 hb hr)

end Conman
