import Verif.Lemma.Child

/-!
C104: what a program started by the daemon - the program of a console or a reset command - gets from it: descriptors, signals that are ignored, file mode mask.
-/
namespace Conman
open Spec

/-- After the start, stdin, stdout and stderr are `/dev/null` in a daemon and as they were in the foreground; every other descriptor has FD_CLOEXEC, or was open before. -/
theorem C104_start (t0 t : FdTab) (fg : Bool) (k : StartFds) (G : Given t0) (h : startFds t0 fg k = some t) :
    (∀ n, n < 3 → t n = some ⟨if fg then .given n else .null, false⟩) ∧ (∀ n f, 3 ≤ n → t n = some f → f.cx = true ∨ t0 n = some f) ∧
    ∀ n f, 3 ≤ n → t0 n = some f → t n = some f := by
  obtain ⟨I, L⟩ := start_inv G h
  refine ⟨L, fun n f h3 hf => ?_, I.keep⟩
  rcases I.high n f h3 hf with h | h | ⟨c, _, h⟩
  · exact .inl h
  · exact .inr h
  · cases h

/-- The program of a console gets the socket pair as stdin, stdout and stderr, and the descriptors above that the daemon was started with.  The only others are connections of clients
that are being set up. -/
theorem C104_program (t0 t : FdTab) (fg : Bool) (k : StartFds) (G : Given t0) (h : startFds t0 fg k = some t) (es : List FdEv) (i a b : Nat) (s : FdSys)
    (hr : FdSys.run { tab := t } (es ++ [.prog i a b]) = some s) :
    ∃ T, s.kids.getLast? = some (.prog i, T) ∧ ∀ n f, T n = some f ↔
      (n < 3 ∧ f = ⟨.pair i false, false⟩) ∨ (3 ≤ n ∧ (t0 n = some f ∨ ∃ c, (c, n) ∈ settingUp es ∧ f = ⟨.client c, false⟩)) := by
  rw [fdRun_append, Option.bind_eq_some_iff] at hr
  obtain ⟨s1, h1, h2⟩ := hr
  have I := ChildInv.run G es (pre := []) (s := { tab := t }) (start_inv G h).1 h1
  simp only [FdSys.run, FdSys.step, Option.bind_eq_some_iff, Option.map_eq_some_iff, Option.some.injEq] at h2
  obtain ⟨_, ⟨ta, ha, tb, hb, rfl⟩, rfl⟩ := h2
  exact ⟨_, by dsimp only; rw [List.getLast?_append]; rfl, fun n f => prog_tab G I ha hb n f⟩

/-- A reset command gets `/dev/null` as stdin, stdout and stderr (or none of them, if that cannot be opened), and the same others. -/
theorem C104_reset (t0 t : FdTab) (fg : Bool) (k : StartFds) (G : Given t0) (h : startFds t0 fg k = some t) (es : List FdEv) (i : Nat) (dn : Option Nat) (s : FdSys)
    (hr : FdSys.run { tab := t } (es ++ [.reset i dn]) = some s) :
    ∃ T, s.kids.getLast? = some (.reset i, T) ∧ ∀ n f, T n = some f ↔
      (n < 3 ∧ dn.isSome ∧ f = ⟨.null, false⟩) ∨ (3 ≤ n ∧ (t0 n = some f ∨ ∃ c, (c, n) ∈ settingUp es ∧ f = ⟨.client c, false⟩)) := by
  rw [fdRun_append, Option.bind_eq_some_iff] at hr
  obtain ⟨s1, h1, h2⟩ := hr
  have I := ChildInv.run G es (pre := []) (s := { tab := t }) (start_inv G h).1 h1
  cases dn with
  | none =>
    simp only [FdSys.run, FdSys.step, Option.bind_eq_some_iff, Option.some.injEq] at h2
    obtain ⟨_, rfl, rfl⟩ := h2
    refine ⟨_, by dsimp only; rw [List.getLast?_append]; rfl, fun n f => ?_⟩
    rw [reset_tab_none G I n f]
    exact ⟨.inr, fun h => h.elim (fun h => (nomatch h.2.1)) id⟩
  | some m =>
    simp only [FdSys.run, FdSys.step, Option.bind_eq_some_iff, Option.map_eq_some_iff, Option.some.injEq] at h2
    obtain ⟨_, ⟨ta, ha, rfl⟩, rfl⟩ := h2
    refine ⟨_, by dsimp only; rw [List.getLast?_append]; rfl, fun n f => ?_⟩
    rw [reset_tab G I ha n f]
    simp

/-- With no client being set up and nothing else open when the daemon was started, a program has its three descriptors and no other. -/
theorem C104_clean (t0 t : FdTab) (fg : Bool) (k : StartFds) (G : Given t0) (h : startFds t0 fg k = some t) (h0 : ∀ n, 3 ≤ n → t0 n = none) (es : List FdEv)
    (hu : settingUp es = []) (e : FdEv) (he : startsProg e = true) (s : FdSys) (hr : FdSys.run { tab := t } (es ++ [e]) = some s) :
    ∃ x, s.kids.getLast? = some x ∧ ∀ n, 3 ≤ n → x.2 n = none := by
  have fin : ∀ T : FdTab, (∀ n f, 3 ≤ n → T n = some f → t0 n = some f ∨ ∃ c, (c, n) ∈ settingUp es ∧ f = ⟨.client c, false⟩) → ∀ n, 3 ≤ n → T n = none := by
    intro T hT n h3
    cases hn : T n with
    | none => rfl
    | some f =>
      rcases hT n f h3 hn with h | ⟨c, h, _⟩
      · rw [h0 n h3] at h; cases h
      · rw [hu] at h; cases h
  cases e with
  | prog i a b =>
    obtain ⟨T, h1, h2⟩ := C104_program t0 t fg k G h es i a b s hr
    refine ⟨_, h1, fin T fun n f h3 hf => ?_⟩
    rcases (h2 n f).1 hf with h | h
    · omega
    · exact h.2
  | reset i dn =>
    obtain ⟨T, h1, h2⟩ := C104_reset t0 t fg k G h es i dn s hr
    refine ⟨_, h1, fin T fun n f h3 hf => ?_⟩
    rcases (h2 n f).1 hf with h | h
    · omega
    · exact h.2
  | «open» _ _ _ => cases he
  | accept _ _ => cases he
  | admit _ => cases he
  | close _ => cases he

/-- A connection of a client gets into a program just if one is started while the connection is being set up. -/
theorem C104_connection (t0 t : FdTab) (fg : Bool) (k : StartFds) (G : Given t0) (h : startFds t0 fg k = some t) (c : Nat) (es : List FdEv) (s : FdSys)
    (hr : FdSys.run { tab := t } es = some s) :
    Holds c s.kids ↔ ∃ p e q, es = p ++ e :: q ∧ startsProg e = true ∧ ∃ n, (c, n) ∈ settingUp p := by
  rw [holds_run G c es (pre := []) (s := { tab := t }) (start_inv G h).1 hr]
  constructor
  · rintro (⟨x, hx, _⟩ | h)
    · cases hx
    · exact h
  · exact .inr

/-! ### A run -/

/-- Three descriptors, and number 3 passed on by whoever started the daemon. -/
def givenTab : FdTab := fun n => if n < 3 then some ⟨.given n, false⟩ else if n = 3 then some ⟨.given 3, false⟩ else none

theorem givenTab_given : Given givenTab := by
  refine ⟨fun n hn => by unfold givenTab; rw [if_pos hn], fun n f h => ?_⟩
  unfold givenTab at h
  by_cases h1 : n < 3
  · rw [if_pos h1] at h; cases h; rfl
  · rw [if_neg h1] at h
    by_cases h2 : n = 3
    · rw [if_pos h2] at h; cases h; rw [h2]
    · rw [if_neg h2] at h; cases h

/-- The numbers of Linux: the lowest that are free. -/
def startNums : StartFds := { poll0 := 4, poll1 := 5, start0 := 6, start1 := 7, conf := 6, listen := 8, dlog := some 9, null := 10 }

/-- Consoles are opened; client 0 is admitted; client 1 is accepted, a program and a reset command are started, the query of client 1 is answered and its connection closed. -/
def childEvs : List FdEv := [.open .telnet 0 7, .open .logfile 0 10, .accept 0 11, .admit 11, .prog 1 12 13, .accept 1 13, .prog 2 14 15, .reset 0 (some 15), .close 13, .prog 3 13 15]

/-- The descriptors of a program, up to a number. -/
def kidFds (m : Nat) (x : Job × FdTab) : Job × List (Nat × Fd) := (x.1, (List.range m).filterMap fun n => (x.2 n).map fun f => (n, f))

theorem child_demo : (do
    let t ← startFds givenTab false startNums
    let s ← FdSys.run { tab := t } childEvs
    some (s.kids.map (kidFds 20))) = some [
      (.prog 1, [(0, ⟨.pair 1 false, false⟩), (1, ⟨.pair 1 false, false⟩), (2, ⟨.pair 1 false, false⟩), (3, ⟨.given 3, false⟩)]),
      (.prog 2, [(0, ⟨.pair 2 false, false⟩), (1, ⟨.pair 2 false, false⟩), (2, ⟨.pair 2 false, false⟩), (3, ⟨.given 3, false⟩), (13, ⟨.client 1, false⟩)]),
      (.reset 0, [(0, ⟨.null, false⟩), (1, ⟨.null, false⟩), (2, ⟨.null, false⟩), (3, ⟨.given 3, false⟩), (13, ⟨.client 1, false⟩)]),
      (.prog 3, [(0, ⟨.pair 3 false, false⟩), (1, ⟨.pair 3 false, false⟩), (2, ⟨.pair 3 false, false⟩), (3, ⟨.given 3, false⟩)])] := by
  decide +kernel

/-- So a connection that the daemon has closed can still be open in a program, which keeps it for as long as it runs: whoever waits for its end waits for that. -/
theorem C104_held : ∃ t s, startFds givenTab false startNums = some t ∧ FdSys.run { tab := t } childEvs = some s ∧ (∀ n, n < 20 → ∀ f, s.tab n = some f → f.file ≠ .client 1) ∧
    Holds 1 s.kids ∧ ¬ Holds 0 s.kids := by
  have h : ((startFds givenTab false startNums).bind fun t => (FdSys.run { tab := t } childEvs).map fun s =>
      (List.range 20).all fun n => match s.tab n with
        | some f => f.file != .client 1
        | none => true) = some true := by decide +kernel
  rw [Option.bind_eq_some_iff] at h
  obtain ⟨t, h1, h⟩ := h
  rw [Option.map_eq_some_iff] at h
  obtain ⟨s, h2, h⟩ := h
  refine ⟨t, s, h1, h2, fun n hn f hf => ?_, ?_, ?_⟩
  · rw [List.all_eq_true] at h
    have := h n (List.mem_range.2 hn)
    rw [hf] at this
    simpa using this
  · rw [C104_connection givenTab t false startNums givenTab_given h1 1 childEvs s h2]
    exact ⟨childEvs.take 6, .prog 2 14 15, childEvs.drop 7, rfl, rfl, 13, by decide⟩
  · rw [C104_connection givenTab t false startNums givenTab_given h1 0 childEvs s h2]
    rintro ⟨p, e, q, hp, he, n, hn⟩
    have hl : p.length < 10 := by
      have := congrArg List.length hp
      simp only [childEvs, List.length_append, List.length_cons, List.length_nil] at this
      omega
    have hpt : p = childEvs.take p.length := by rw [hp, List.take_left' rfl]
    have hee : childEvs[p.length]? = some e := by rw [hp]; simp
    have key : ∀ m, m < 10 → (childEvs[m]?).all (fun e => !startsProg e) = true ∨ ∀ x, x ∈ settingUp (childEvs.take m) → x.1 ≠ 0 := by decide
    rcases key p.length hl with h | h
    · rw [hee] at h; simp [he] at h
    · rw [← hpt] at h; exact h _ hn rfl

/-- In the foreground with nothing passed on: three descriptors each. -/
example : ((startFds (fun n => if n < 3 then some ⟨.given n, false⟩ else none) true { startNums with poll0 := 3, poll1 := 4, conf := 5, listen := 6 }).bind fun t =>
    (FdSys.run { tab := t } [.prog 1 12 13, .reset 1 none]).map fun s => s.kids.map fun x => (kidFds 20 x).2.map Prod.fst) = some [[0, 1, 2], []] := by decide +kernel

/-! ### stdin closed -/

/-- Started with stdin closed, with the numbers of Linux: the read end of the poll pipe is number 0, and `end_daemonize` puts `/dev/null` in its place. -/
theorem C104_stdin_closed : (startFds (fun n => if n = 1 ∨ n = 2 then some ⟨.given n, false⟩ else none) false
      { poll0 := 0, poll1 := 3, start0 := 4, start1 := 5, conf := 4, listen := 6, dlog := none, null := 7 }).map (fun t => [0, 1, 2, 3, 4, 5].map t) =
    some [some ⟨.null, false⟩, some ⟨.null, false⟩, some ⟨.null, false⟩, some ⟨.own .pollPipe 1, true⟩, some ⟨.own .conf 0, true⟩, none] := by decide +kernel

/-- With stdin, stdout and stderr open, both ends of the poll pipe stay, whichever numbers the kernel gives. -/
theorem C104_poll_pipe (t0 t : FdTab) (fg : Bool) (k : StartFds) (G : Given t0) (h : startFds t0 fg k = some t) :
    t k.poll0 = some ⟨.own .pollPipe 0, true⟩ ∧ t k.poll1 = some ⟨.own .pollPipe 1, true⟩ := poll_pipe G h

/-! ### Signals and mask -/

/-- A program begins with SIGPIPE (13) ignored, the signals that the daemon handles as by default, and all others as the daemon was started with. -/
theorem C104_signals (t : Nat → Disp) (h : FreshSignals t) (fg : Bool) (s : Nat) :
    execSignals (daemonSignals t fg) s = if s = 13 then .ign else if s ∈ [17, 1, 2, 15, 6, 7, 8, 4, 3, 11] then .dfl else t s := by
  have h0 := h s
  simp only [execSignals, daemonSignals, setupSignals, List.foldl_cons, List.foldl_nil, posixSignal, List.mem_cons, List.not_mem_nil, or_false]
  by_cases h13 : s = 13
  · subst h13; rfl
  · rw [if_neg h13]
    by_cases hm : s = 17 ∨ s = 1 ∨ s = 2 ∨ s = 15 ∨ s = 6 ∨ s = 7 ∨ s = 8 ∨ s = 4 ∨ s = 3 ∨ s = 11
    · rw [if_pos hm]
      rcases hm with rfl | rfl | rfl | rfl | rfl | rfl | rfl | rfl | rfl | rfl <;> rfl
    · rw [if_neg hm]
      simp only [not_or] at hm
      obtain ⟨a1, a2, a3, a4, a5, a6, a7, a8, a9, a10⟩ := hm
      rw [if_neg a10, if_neg a9, if_neg a8, if_neg a7, if_neg a6, if_neg a5, if_neg a4, if_neg h13, if_neg a3, if_neg a2, if_neg a1]
      have : (if fg = true then t else posixSignal t 1 .ign) s = t s := by
        cases fg
        · exact if_neg a2
        · rfl
      rw [this]
      cases hd : t s with
      | dfl => rfl
      | ign => rfl
      | handler => exact absurd hd h0

/-- A daemon, and so each program it starts, has the mask 0, whatever it was started with and however often the file of the process id and the log of the daemon are opened. -/
theorem C104_mask (m : Nat) (cs cs' : List MaskCall) : (cs ++ .daemonize :: cs').foldl maskAfter m = 0 := by
  rw [List.foldl_append]
  dsimp only [List.foldl_cons, maskAfter]
  induction cs' with
  | nil => rfl
  | cons c cs' ih =>
    have : maskAfter 0 c = 0 := by cases c <;> rfl
    dsimp only [List.foldl_cons]
    rw [this]
    exact ih

example : FreshSignals (fun s => if s = 1 then Disp.ign else .dfl) := by intro s; by_cases h : s = 1 <;> simp [h]

end Conman
