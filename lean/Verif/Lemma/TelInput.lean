import Verif.Lemma.WorldInputRun
import Verif.Spec.TelInput
import Verif.Props.Telnet
import Verif.Props.Input

/-
Input of a telnet console: helper lemmas for C98.
-/
namespace Conman
open Spec

/-- `u` is a telnet stream with elements the daemon sends, and carries the data `t`. -/
def TelStream (u t : List UInt8) : Prop :=
  ∃ toks : List TelTok, u = toks.flatMap TelTok.enc ∧ (∀ x ∈ toks, telSends x = true) ∧ toks.flatMap TelTok.appData = t

theorem TelStream.nil : TelStream [] [] := ⟨[], rfl, by simp, rfl⟩

theorem TelStream.append {u t u' t' : List UInt8} (h : TelStream u t) (h' : TelStream u' t') : TelStream (u ++ u') (t ++ t') := by
  obtain ⟨a, a1, a2, a3⟩ := h
  obtain ⟨b, b1, b2, b3⟩ := h'
  refine ⟨a ++ b, by rw [List.flatMap_append, a1, b1], ?_, by rw [List.flatMap_append, a3, b3]⟩
  intro x hx
  rcases List.mem_append.1 hx with g | g
  · exact a2 x g
  · exact b2 x g

theorem appData_data (t : List UInt8) : (t.map TelTok.data).flatMap TelTok.appData = t := by
  induction t with
  | nil => rfl
  | cons b t ih => rw [List.map_cons, List.flatMap_cons, ih]; rfl

theorem TelStream.text {t : List UInt8} (h : 255 ∉ t) : TelStream t t := by
  refine ⟨t.map TelTok.data, C91_telnet_plain t h, ?_, appData_data t⟩
  intro x hx
  obtain ⟨b, _, rfl⟩ := List.mem_map.1 hx
  rfl

theorem cmdInput_telnet (o : Obj) (hk : o.kind = .telnet) (a : UInt8) :
    cmdInput o a = if a = 0x44 then [0x7F] else if a = 0x42 ∧ o.conn = .up then [255, 243] else [] := by
  unfold cmdInput
  rw [hk]
  by_cases h1 : a = 0x44
  · rw [if_pos h1, if_pos h1]
  · by_cases h2 : a = 0x42
    · by_cases h3 : o.conn = .up <;> simp [h2, h3]
    · simp [h1, h2]

theorem TelStream.cmd (o : Obj) (hk : o.kind = .telnet) (a : UInt8) : TelStream (cmdInput o a) (cmdInput { o with conn := .down } a) := by
  rw [cmdInput_telnet o hk, cmdInput_telnet { o with conn := .down } hk]
  dsimp only
  by_cases h1 : a = 0x44
  · rw [if_pos h1, if_pos h1]; exact TelStream.text (by decide)
  · rw [if_neg h1, if_neg h1, if_neg (c := a = 66 ∧ ConnState.down = ConnState.up) (by rintro ⟨_, h⟩; cases h)]
    split
    · exact ⟨[.cmd 243], rfl, by simp [telSends], rfl⟩
    · exact TelStream.nil

theorem TelStream.cmds (o : Obj) (hk : o.kind = .telnet) (own wr : Bool) (as : List UInt8) :
    TelStream (cmdsInput o own wr as).1 (cmdsInput { o with conn := .down } own wr as).1 ∧
    (cmdsInput { o with conn := .down } own wr as).2 = (cmdsInput o own wr as).2 := by
  induction as generalizing wr with
  | nil => exact ⟨TelStream.nil, rfl⟩
  | cons a as ih =>
    unfold cmdsInput
    dsimp only
    refine ⟨TelStream.append ?_ (ih _).1, (ih _).2⟩
    cases wr with
    | false => exact TelStream.nil
    | true =>
      rw [if_pos rfl, if_pos rfl]
      exact TelStream.cmd o hk a

theorem TelStream.replies (o : Obj) (d : List UInt8) : TelStream (telReplies o d) [] := by
  unfold telReplies
  cases h : telChunks o.iac [d] with
  | none => exact TelStream.nil
  | some r =>
    obtain ⟨i, dt, s⟩ := r
    rw [telChunks_eq] at h
    obtain ⟨ts, e, -, m⟩ := telRef_reply h
    refine ⟨ts, e, ?_, ?_⟩
    · intro t ht
      obtain ⟨p, rfl | rfl⟩ := m t ht <;> rfl
    · rw [List.flatMap_eq_nil_iff]
      intro t ht
      obtain ⟨p, rfl | rfl⟩ := m t ht <;> rfl

theorem TelStream.hello : TelStream telHello [] :=
  ⟨[.do_ 0, .do_ 1, .do_ 3, .will 0, .will 3], by decide, by decide, by decide⟩

/-- One step. -/
theorem TelStream.step (w : World) (k : Nat) (hk : (w.obj k).kind = .telnet) (s : Step) (h : 255 ∉ textOf w k s) :
    TelStream (typed w k s) (textOf w k s) := by
  cases s with
  | poll i up rd wr =>
    cases rd with
    | none => exact TelStream.nil
    | some r =>
      cases r with
      | data d =>
        unfold textOf at h
        unfold typed textOf
        dsimp only at h ⊢
        by_cases h1 : i ∈ w.live ∧ ((w.obj i).pin = true ∨ (w.obj i).pout = true)
        · rw [if_pos h1]
          by_cases h2 : (w.obj i).kind = .client
          · have hc : i ∈ w.live ∧ ((w.obj i).pin = true ∨ (w.obj i).pout = true) ∧ (w.obj i).kind = .client := ⟨h1.1, h1.2, h2⟩
            rw [if_pos hc] at h
            rw [if_pos h2, if_pos hc]
            obtain ⟨c1, c2⟩ := TelStream.cmds (w.obj k) hk (!(w.obj i).bcast && (w.obj i).writers.contains k) ((w.obj i).readers.contains k)
              (wireCommands (w.obj i).gotEscape d)
            rw [c2] at h ⊢
            refine c1.append (TelStream.text fun g => h (List.mem_append_right _ g))
          · have hc : ¬ (i ∈ w.live ∧ ((w.obj i).pin = true ∨ (w.obj i).pout = true) ∧ (w.obj i).kind = .client) := fun g => h2 g.2.2
            rw [if_neg h2, if_neg hc]
            split
            · exact TelStream.replies _ _
            · exact TelStream.nil
        · have hc : ¬ (i ∈ w.live ∧ ((w.obj i).pin = true ∨ (w.obj i).pout = true) ∧ (w.obj i).kind = .client) := fun g => h1 ⟨g.1, g.2.1⟩
          rw [if_neg h1, if_neg hc]
          exact TelStream.nil
      | _ => exact TelStream.nil
  | connUp i =>
    unfold typed textOf
    dsimp only
    split
    · exact TelStream.hello
    · exact TelStream.nil
  | _ => exact TelStream.nil

/-- A history. -/
theorem TelStream.run {env : Env} (k : Nat) (ss : List Step) : ∀ {w : World}, FInv w → k ∈ w.live → (w.obj k).kind = .telnet →
    255 ∉ textAll env w k ss → TelStream (typedAll env w k ss) (textAll env w k ss) := by
  induction ss with
  | nil => intro w _ _ _ _; exact TelStream.nil
  | cons s ss ih =>
    intro w h hl hk hn
    unfold typedAll textAll
    unfold textAll at hn
    refine (TelStream.step w k hk s fun g => hn (List.mem_append_left _ g)).append ?_
    have hn2 := fun g => hn (List.mem_append_right _ g)
    clear hn
    cases h1 : w.step env s with
    | none => exact TelStream.nil
    | some w1 =>
      rw [h1] at hn2
      dsimp only at hn2 ⊢
      obtain ⟨l1, l2, l3⟩ := step_live h.e.d s h1
      have hkc : (w.obj k).kind.isConsole = true := by rw [hk]; rfl
      have hl1 : k ∈ w1.live := (l2 k hl).resolve_right (fun g => not_client_of_console hkc g.2)
      exact ih (w := { w1 with tick := w1.tick + 1 }) ((h.step s h1).tick (w1.tick + 1)) hl1
        (by show (w1.obj k).kind = _; rw [l3 k hl]; exact hk) hn2

/-- What a peer decodes of the beginning of such a stream. -/
theorem TelStream.peer {u t : List UInt8} (h : TelStream u t) {x : List UInt8} (hx : x <+: u) (chunks : List (List UInt8)) (hc : chunks.flatten = x) :
    ∃ i d r, telChunks none chunks = some (i, d, r) ∧ d <+: t ∧ (x = u → i = none ∧ d = t) := by
  obtain ⟨toks, e, m, a⟩ := h
  have hall : telRef none u = some (none, t, (toks.flatMap TelTok.reply).flatMap TelTok.enc) := by
    rw [e, telRef_toks, a]
    · intro y hy
      have := m y hy
      cases y with
      | cmd c =>
        simp only [telSends, decide_eq_true_eq] at this
        subst this
        show (243 : UInt8) < 250
        decide
      | _ => trivial
    · intro b hb
      have := m _ hb
      simp [telSends] at this
  rw [telChunks_eq, hc]
  obtain ⟨y, rfl⟩ := hx
  rw [telRef_append] at hall
  cases h1 : telRef none x with
  | none => rw [h1] at hall; cases hall
  | some r =>
    obtain ⟨i, d, s⟩ := r
    rw [h1] at hall
    dsimp only at hall
    refine ⟨i, d, s, rfl, ?_, ?_⟩
    · unfold telPre at hall
      split at hall
      · cases hall
      · simp only [Option.some.injEq, Prod.mk.injEq] at hall
        exact ⟨_, hall.2.1⟩
    · intro hxy
      have hy : y = [] := by
        have := congrArg List.length hxy
        simpa using this
      subst hy
      unfold telPre at hall
      simp only [telRef, Option.some.injEq, Prod.mk.injEq, List.append_nil] at hall
      exact ⟨hall.1, hall.2.1⟩

/-- The text typed by the only client that types, for every kind of console. -/
theorem textAll_run {env : Env} (c k : Nat) (ss : List Step) : ∀ {w w' : World}, FInv w → w.run env ss = some w' →
    c ∈ w.live → (w.obj c).kind = .client → k ∈ (w.obj c).readers → ss.all (noGrant c) = true →
    (∀ i up d wr, .poll i up (some (.data d)) wr ∈ ss → d.length ≤ 8191) →
    (wireCommands (w.obj c).gotEscape (ss.flatMap (readFrom c))).all inert = true → c ∈ w'.live → (w'.obj c).eof = false →
    (∀ i up d wr, .poll i up (some (.data d)) wr ∈ ss → i = c ∨ i ∈ w.live ∧ (w.obj i).kind ≠ .client) →
    textAll env w k ss = wireData (w.obj c).gotEscape (ss.flatMap (readFrom c)) := by
  induction ss with
  | nil =>
    intro w w' _ _ _ _ _ _ _ _ _ _ _
    simp [textAll, wireData]
  | cons s ss ih =>
    intro w w' h hr hl hk hrd hng hlen hcmd hl' he' hon
    simp only [World.run, Option.bind_eq_some_iff] at hr
    obtain ⟨w1, h1, h2⟩ := hr
    simp only [List.all_cons, Bool.and_eq_true] at hng
    have h3 := (h.step s h1).tick (w1.tick + 1)
    have hl1 : c ∈ w1.live := by
      by_cases g : c ∈ w1.live
      · exact g
      · exact absurd hl' (run_gone (w := { w1 with tick := w1.tick + 1 }) c ss h3.e h2 hng.2 g)
    have hrl : ∀ t ∈ s :: ss, (readFrom c t).length ≤ 8191 := by
      intro t ht
      unfold readFrom
      split
      · split
        · exact hlen _ _ _ _ ht
        · simp
      · simp
    have hsm := step_mode h.e s h1 c hl hk (hrl s List.mem_cons_self) hl1
    have he1 : (w1.obj c).eof = false := by
      cases hh : (w1.obj c).eof with
      | false => rfl
      | true =>
        have := (run_mode (w := { w1 with tick := w1.tick + 1 }) c ss h3.e h2 hng.2
          (fun t ht => hrl t (List.mem_cons_of_mem _ ht)) hl1 hsm.1 hl').2.1 hh
        rw [this] at he'; simp at he'
    rw [List.flatMap_cons, wireCommands_append, List.all_append, Bool.and_eq_true] at hcmd
    obtain ⟨hc1, hc2⟩ := hcmd
    obtain ⟨r1, r2, r3, r4⟩ := keeps_writing h s h1 c k hl hk (hrl s List.mem_cons_self) hl1 he1 hng.1 hc1 hrd
    have e : textAll env w k (s :: ss) = textOf w k s ++ textAll env { w1 with tick := w1.tick + 1 } k ss := by
      rw [textAll, h1]
    have ci := h.e.cl c hl hk
    rw [e, List.flatMap_cons, wireData_append]
    rw [← r2] at hc2 ⊢
    obtain ⟨l1, l2, l3⟩ := step_live h.e.d s h1
    have i2 := ih (w := { w1 with tick := w1.tick + 1 }) h3 h2 hl1 r3 r1 hng.2 (fun i up d wr hm => hlen i up d wr (by simp [hm])) hc2 hl' he' (by
      intro i up d wr hm
      rcases hon i up d wr (by simp [hm]) with g | g
      · exact Or.inl g
      · have : i ∈ w1.live := (l2 i g.1).resolve_right (fun z => g.2 z.2)
        exact Or.inr ⟨this, by show (w1.obj i).kind ≠ _; rw [l3 i g.1]; exact g.2⟩)
    rw [i2]
    congr 1
    cases s with
    | poll i up rd wr =>
      cases rd with
      | none => rfl
      | some r =>
        cases r with
        | data d =>
          rcases hon i up d wr List.mem_cons_self with g | g
          · subst g
            have e1 : readFrom i (.poll i up (some (.data d)) wr) = d := by simp [readFrom]
            rw [e1] at hc1 ⊢
            unfold textOf
            dsimp only
            rw [if_pos ⟨hl, Or.inl (ci.pin r4), hk⟩, inert_cmdsInput _ _ _ _ hc1]
            have : (w.obj i).readers.contains k = true := by simpa using hrd
            rw [this]
            simp
          · have e1 : readFrom c (.poll i up (some (.data d)) wr) = [] := by
              unfold readFrom
              dsimp only
              rw [if_neg]
              rintro rfl
              exact g.2 hk
            rw [e1]
            unfold textOf
            dsimp only
            rw [if_neg (fun z => g.2 z.2.2)]
            rfl
        | _ => rfl
    | _ => rfl

end Conman
