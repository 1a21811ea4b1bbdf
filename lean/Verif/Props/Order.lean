import Verif.Lemma.WorldSplit
import Verif.Spec.Demo

/-
C60: commands take effect at their position in the typed stream.
-/
namespace Conman
open Spec

/-- Read the bytes of a client one at a time. -/
def bytewise (env : Env) (c : Nat) (up : Bool) (w : World) : List UInt8 → Option World
  | [] => some w
  | b :: rest => (w.step env (.poll c up (some (.data [b])) none)).bind (fun w => bytewise env c up w rest)

theorem wireEsc_eq (d : List UInt8) : ∀ e, wireEsc e d = (unescRef e d).1 := by
  induction d with
  | nil => intro e; rfl
  | cons b d ih =>
    intro e
    unfold wireEsc unescRef
    have hE : escChar = 0xFF := rfl
    rw [ih]
    cases e
    · by_cases h : b = 0xFF
      · simp [h, hE]
      · simp [h, hE]
    · by_cases h : b = 0xFF <;> simp [h, hE]

/-- No data byte is followed by a command. -/
def inOrder (e : Bool) : List UInt8 → Prop
  | [] => True
  | b :: rest => (wireData e [b] = [] ∨ wireCommands (wireEsc e [b]) rest = []) ∧ inOrder (wireEsc e [b]) rest

theorem wireData_append (a b : List UInt8) (e : Bool) : wireData e (a ++ b) = wireData e a ++ wireData (wireEsc e a) b := by
  rw [wireEsc_eq, ← (unescRef_wire _ _).1, ← (unescRef_wire _ _).1, ← (unescRef_wire _ _).1, unescRef_append]

theorem wireCommands_append (a b : List UInt8) (e : Bool) :
    wireCommands e (a ++ b) = wireCommands e a ++ wireCommands (wireEsc e a) b := by
  rw [wireEsc_eq, ← (unescRef_wire _ _).2, ← (unescRef_wire _ _).2, ← (unescRef_wire _ _).2, unescRef_append]

theorem wireEsc_append (a b : List UInt8) (e : Bool) : wireEsc e (a ++ b) = wireEsc (wireEsc e a) b := by
  induction a generalizing e with
  | nil => rfl
  | cons x a ih => exact ih _

theorem inOrder_text (ts : List UInt8) : ∀ e, wireCommands e ts = [] → inOrder e ts := by
  induction ts with
  | nil => intro e _; trivial
  | cons b ts ih =>
    intro e h
    have := wireCommands_append [b] ts e
    rw [List.singleton_append, h] at this
    have := List.append_eq_nil_iff.1 this.symm
    exact ⟨Or.inr this.2, ih _ this.2⟩

theorem inOrder_split (cs ts : List UInt8) : ∀ e, wireData e cs = [] → wireCommands (wireEsc e cs) ts = [] → inOrder e (cs ++ ts) := by
  induction cs with
  | nil => intro e _ h; exact inOrder_text ts e h
  | cons b cs ih =>
    intro e h1 h2
    have := wireData_append [b] cs e
    rw [List.singleton_append, h1] at this
    have := List.append_eq_nil_iff.1 this.symm
    exact ⟨Or.inl this.1, ih _ this.2 h2⟩

theorem bytewise_eq {env : Env} {c : Nat} (up : Bool) (rest : List UInt8) : ∀ (b : UInt8) {w : World}, FInv w → c ∈ w.live →
    (w.obj c).kind = .client → (w.obj c).eof = false → (b :: rest).length ≤ 8191 → inOrder (w.obj c).gotEscape (b :: rest) →
    w.step env (.poll c up (some (.data (b :: rest))) none) = bytewise env c up w (b :: rest) := by
  induction rest with
  | nil => intro b w _ _ _ _ _ _; simp [bytewise]
  | cons b2 rest ih =>
    intro b w h hl hk he hd ho
    have ci := h.e.cl c hl hk
    have hp := ci.pin he
    have hb := poll_is_read (w := w) env c up (.data [b]) hl hp
    rw [poll_is_read env c up _ hl hp]
    have e : b :: b2 :: rest = [b] ++ (b2 :: rest) := rfl
    rw [e, read_split h.e.d.inv env up c hk ci [b] (b2 :: rest) hd (by rw [← wireEsc_eq]; exact ho.1)]
    show _ = (w.step env (.poll c up (some (.data [b])) none)).bind (fun w => bytewise env c up w (b2 :: rest))
    rw [hb]
    cases hv : w.read env up c (.data [b]) with
    | none => rfl
    | some v =>
      rw [Option.bind_some, Option.bind_some]
      obtain ⟨c1, c2, c3, c4⟩ := client_read_keeps h.e.d.inv env up c hk ci [b] (by simp) hv
      have hl' : c ∈ v.live := by rw [c3]; exact hl
      have he' : (v.obj c).eof = false := by rw [c2]; exact he
      rw [← ih b2 (h.step _ (hb.trans hv)) hl' c1.kind he' (by simp at hd ⊢; omega) (by rw [c4, ← wireEsc_eq]; exact ho.2)]
      rw [poll_is_read env c up _ hl' (c1.pin he')]

/-- C60 (partial). A read in which no command follows a data byte (some commands `cs`, then some text `ts`; either may be empty,
and a command or an escaped byte may be cut anywhere) has exactly the effect of reading its bytes one at a time: every command
takes effect before the text typed after it, and commands take effect in the order typed.
Missing: reads in which a command follows text (see `C60_command_overtakes_text`). -/
theorem C60_commands_then_text_partial {env : Env} {w : World} (h : Reachable env w) (c : Nat) (hl : c ∈ w.live)
    (hk : (w.obj c).kind = .client) (he : (w.obj c).eof = false) (up : Bool) (cs ts : List UInt8)
    (hne : cs ++ ts ≠ []) (hlen : (cs ++ ts).length ≤ 8191)
    (h1 : wireData (w.obj c).gotEscape cs = []) (h2 : wireCommands (wireEsc (w.obj c).gotEscape cs) ts = []) :
    w.step env (.poll c up (some (.data (cs ++ ts))) none) = bytewise env c up w (cs ++ ts) := by
  have := inOrder_split cs ts _ h1 h2
  cases hd : cs ++ ts with
  | nil => exact absurd hd hne
  | cons b rest =>
    rw [hd] at this hlen
    exact bytewise_eq up rest b h.finv hl hk he hlen this

/-- C60 (partial). Any read can be cut in two without changing its effect, unless the first part contains data and the second
a command. -/
theorem C60_cut_partial {env : Env} {w : World} (h : Reachable env w) (c : Nat) (hl : c ∈ w.live)
    (hk : (w.obj c).kind = .client) (he : (w.obj c).eof = false) (up : Bool) (d1 d2 : List UInt8)
    (hlen : (d1 ++ d2).length ≤ 8191)
    (hs : wireData (w.obj c).gotEscape d1 = [] ∨ wireCommands (wireEsc (w.obj c).gotEscape d1) d2 = []) :
    w.step env (.poll c up (some (.data (d1 ++ d2))) none) =
      (w.step env (.poll c up (some (.data d1)) none)).bind (fun v => v.step env (.poll c up (some (.data d2)) none)) := by
  have ci := h.finv.e.cl c hl hk
  have hp := ci.pin he
  rw [poll_is_read env c up _ hl hp, poll_is_read env c up _ hl hp,
    read_split h.inv.inv env up c hk ci d1 d2 hlen (by rw [← wireEsc_eq]; exact hs)]
  cases hv : w.read env up c (.data d1) with
  | none => rfl
  | some v =>
    obtain ⟨c1, c2, c3, c4⟩ := client_read_keeps h.inv.inv env up c hk ci d1 (by rw [List.length_append] at hlen; omega) hv
    rw [Option.bind_some, Option.bind_some, poll_is_read env c up _ (by rw [c3]; exact hl) (c1.pin (by rw [c2]; exact he))]

/-- The hypotheses hold: `&D` and `&Z` (the second cut by the network from its first byte) before "ab". -/
example : let w := Demo.after Demo.three
    Reachable Demo.env w ∧ 10 ∈ w.live ∧ (w.obj 10).kind = .client ∧ (w.obj 10).eof = false ∧
    wireData (w.obj 10).gotEscape [0xFF, 0x44, 0xFF, 0x5A] = [] ∧ wireCommands (wireEsc (w.obj 10).gotEscape [0xFF, 0x44, 0xFF, 0x5A]) [0x61, 0x62] = [] ∧
    (w.step Demo.env (.poll 10 true (some (.data [0xFF, 0x44, 0xFF, 0x5A, 0x61, 0x62])) none)).map (fun v => (v.obj 0).pend) = some [0x7F, 0x61, 0x62] :=
  ⟨Demo.reach _ (by decide +kernel), by decide +kernel, by decide +kernel, by decide +kernel, by decide +kernel, by decide +kernel,
    by decide +kernel⟩

/-- Finding (refutes C60). "a", DEL command, "b" typed by client 10: in one read the DEL overtakes the "a"; byte by byte it does
not. -/
theorem C60_command_overtakes_text :
    ∃ w, Reachable Demo.env w ∧
      (w.step Demo.env (.poll 10 true (some (.data [0x61, 0xFF, 0x44, 0x62])) none)).map (fun v => (v.obj 0).pend) = some [0x7F, 0x61, 0x62] ∧
      (bytewise Demo.env 10 true w [0x61, 0xFF, 0x44, 0x62]).map (fun v => (v.obj 0).pend) = some [0x61, 0x7F, 0x62] :=
  ⟨Demo.after Demo.one, Demo.reach _ (by decide +kernel), by decide +kernel, by decide +kernel⟩

/-- Finding (refutes C60). Even byte by byte, a serial break is sent at once while text typed before it still waits. -/
theorem C60_break_overtakes_text :
    ∃ w v, Reachable Demo.env w ∧ bytewise Demo.env 10 true w [0x61, 0xFF, 0x42] = some v ∧ v.fx = w.fx ++ [.brk 0] ∧
      (v.obj 0).pend = [0x61] := by
  have hs : (bytewise Demo.env 10 true (Demo.after Demo.one) [0x61, 0xFF, 0x42]).isSome = true := by decide +kernel
  have h2 : (bytewise Demo.env 10 true (Demo.after Demo.one) [0x61, 0xFF, 0x42]).map (fun v => (v.fx, (v.obj 0).pend)) =
    some ((Demo.after Demo.one).fx ++ [.brk 0], [0x61]) := by decide +kernel
  have hr : Reachable Demo.env (Demo.after Demo.one) := Demo.reach _ (by decide +kernel)
  cases hv : bytewise Demo.env 10 true (Demo.after Demo.one) [0x61, 0xFF, 0x42] with
  | none => rw [hv] at hs; simp at hs
  | some v =>
    rw [hv] at h2
    simp only [Option.map_some, Option.some.injEq, Prod.mk.injEq] at h2
    exact ⟨_, v, hr, hv, h2⟩

end Conman
