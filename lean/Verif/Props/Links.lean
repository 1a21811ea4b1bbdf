import Verif.Lemma.WorldMore
import Verif.Model.Request
import Verif.Spec.Demo

/-
C09, C10, C11, C12, C48, C63, C64: who is linked to whom.

`w.obj i` is object `i` (a console, its log, or a client).  `x ∈ (w.obj c).readers`:
what `c` sends goes to `x`; `x ∈ (w.obj c).writers`: `x` sends to `c`.
-/
namespace Conman
open Spec

/-! ### C09 -/

/-- C09. In every state the daemon can get into, `b` is a reader of `a` exactly
when `a` is a writer of `b`, each at most once. -/
theorem C09_links_symmetric {env : Env} {w : World} (h : Reachable env w) (a b : Nat) :
    (b ∈ (w.obj a).readers ↔ a ∈ (w.obj b).writers) ∧ (w.obj a).readers.Nodup ∧ (w.obj a).writers.Nodup :=
  ⟨h.inv.inv.l.sym a b, h.inv.inv.l.ndR a, h.inv.inv.l.ndW a⟩

/-- A writer, one that joined and a monitor. -/
example : Reachable Demo.env (Demo.after Demo.three) ∧
    ((Demo.after Demo.three).obj 0).readers = [1, 10, 11, 12] ∧ ((Demo.after Demo.three).obj 0).writers = [10, 11] :=
  ⟨Demo.reach _ (by decide +kernel), by decide +kernel, by decide +kernel⟩

/-! ### C63 -/

/-- C63. Links only join objects that exist; a link from a client leads to a console,
and one to a client or a log comes from a console.  An object that no longer exists has no
links and is in no list. -/
theorem C63_links_live {env : Env} {w : World} (h : Reachable env w) (a b : Nat) (hl : b ∈ (w.obj a).readers) :
    a ∈ w.live ∧ b ∈ w.live ∧
    (((w.obj a).kind = .client ∧ (w.obj b).kind.isConsole = true) ∨
     ((w.obj a).kind.isConsole = true ∧ (w.obj b).kind.isConsole = false)) :=
  ⟨(h.inv.inv.l.live a b hl).1, (h.inv.inv.l.live a b hl).2, h.inv.inv.l.kinds a b hl⟩

theorem C63_gone_unlinked {env : Env} {w : World} (h : Reachable env w) (x : Nat) (hx : x ∉ w.live) :
    (w.obj x).readers = [] ∧ (w.obj x).writers = [] ∧
    ∀ a, x ∉ (w.obj a).readers ∧ x ∉ (w.obj a).writers := by
  have := h.inv.inv.l.fresh hx
  exact ⟨this.1, this.2.1, fun a => this.2.2 a⟩

/-- C63. The links of a client have one of these shapes: a session with one console
(reading it, and writing to it or not), a broadcast (writing to several, reading none), or
none at all. -/
theorem C63_client_shape {env : Env} {w : World} (h : Reachable env w) (c : Nat)
    (hk : (w.obj c).kind = .client) :
    ((w.obj c).bcast = true → (w.obj c).writers = []) ∧
    ((w.obj c).bcast = false → (w.obj c).readers = [] ∧ (w.obj c).writers = [] ∨
      ∃ con, (w.obj c).writers = [con] ∧ ((w.obj c).readers = [] ∨ (w.obj c).readers = [con])) :=
  h.inv.inv.cs c (by simp) hk

/-- Client 10 left after client 11 had joined. -/
example : let w := Demo.after (Demo.three ++ [.poll 10 true (some .err) none])
    Reachable Demo.env w ∧ 10 ∉ w.live ∧ (w.obj 0).writers = [11] :=
  ⟨Demo.reach _ (by decide +kernel), by decide +kernel, by decide +kernel⟩

/-! ### C10 -/

/-- What is said of every client that had the console before: it lost all its links and is
marked end-of-file; unless it was quiet (or marked before), the news is among its waiting bytes
(at most 16383 of them, the newest). -/
structure Evicted (env : Env) (w w' : World) (c : Nat) (consoles : List Nat) (x : Nat) : Prop where
  readers : (w'.obj x).readers = []
  writers : (w'.obj x).writers = []
  eof : (w'.obj x).eof = true
  told : (w.obj x).eof = false → (w.obj x).quiet = false → ∃ con ∈ consoles, x ∈ (w.obj con).writers ∧
    ∃ pre post, (w'.obj x).pend =
      lastN queueCap ((w.obj x).pend ++ (pre ++ env.txt (.stolenBy c con) w.tick ++ post))

theorem Robbed.evicted {env : Env} {w w' : World} {c : Nat} {cons : List Nat} {x : Nat} (r : Robbed env w w' c cons x)
    (h : (w.obj x).pend.length ≤ queueCap) (henv : ∀ n t, (env.txt n t).length ≤ queueCap) :
    Evicted env w w' c cons x := by
  refine ⟨r.rd, r.wr, r.eof, fun he hq => ?_⟩
  obtain ⟨con, h1, h2, msgs, hm, hp⟩ := r.told he hq
  obtain ⟨pre, post, e⟩ := enqs_mem _ h msgs _ hm (henv _ _)
  exact ⟨con, h1, h2, pre, post, by rw [hp, e]⟩

/-- C10. When a forced connect request is carried out, the new client is the only writer
of each console it asked for, and every client that was a writer of one of them is evicted. -/
theorem C10_forced_connect {env : Env} {w w' : World} (h : Reachable env w)
    (henv : ∀ n t, (env.txt n t).length ≤ queueCap) (c k : Nat) (q : Req)
    (hq : w.wait[k]? = some q) (hc : c ∉ w.live) (hcmd : q.cmd = .connect) (hf : q.force = true)
    (hs : w.step env (.grant c k) = some w') :
    (∀ con ∈ q.consoles, (w'.obj con).writers = [c]) ∧
    ∀ con ∈ q.consoles, ∀ x ∈ (w.obj con).writers, Evicted env w w' c q.consoles x := by
  have hd := h.inv
  obtain ⟨hsh, hok⟩ := hd.wait q (List.mem_of_getElem? hq)
  simp only [World.step, hq, if_neg hc, Option.some.injEq] at hs
  subst hs
  have hd' := hd.unwait (w.wait.eraseIdx k) (fun q hq => List.mem_of_mem_eraseIdx hq)
  have g := grant_force hd'.inv env c q hsh hc hok hcmd hf
  refine ⟨g.1, fun con hcon x hx => ?_⟩
  have r := g.2 con hcon x hx
  exact Robbed.evicted (w := w) ⟨r.rd, r.wr, r.eof, r.told⟩ (hd.inv.oi x).cap henv

/-- C10. The same when a read-only client takes its console over with the command F. -/
theorem C10_forced_by_escape {env : Env} {w w' : World} (h : Reachable env w)
    (henv : ∀ n t, (env.txt n t).length ≤ queueCap) (c con : Nat) (up : Bool) (d : List UInt8)
    (hk : (w.obj c).kind = .client) (hlive : c ∈ w.live) (he : (w.obj c).eof = false)
    (hr : (w.obj c).readers = []) (hw : (w.obj c).writers = [con]) (hd : d.length ≤ 8191)
    (hcmd : wireCommands (w.obj c).gotEscape d = [0x46])
    (hs : w.step env (.poll c up (some (.data d)) none) = some w') :
    (w'.obj con).writers = [c] ∧ ∀ x ∈ (w.obj con).writers, Evicted env w w' c [con] x := by
  have hd' := h.inv
  have hb : (w.obj c).bcast = false := by
    cases hb : (w.obj c).bcast with
    | false => rfl
    | true => have := (hd'.inv.cs c (by simp) hk).1 hb; rw [hw] at this; simp at this
  have ci := h.einv.cl c hlive hk
  have hpin : (w.obj c).pin = true := ci.pin he
  simp only [World.step] at hs
  rw [if_neg (by simp [hlive, hpin])] at hs
  simp only [Option.map_eq_some_iff] at hs
  obtain ⟨w1, h1, h2⟩ := hs
  have e : w' = w1 := by
    split at h2
    · exact h2.symm
    · split at h2
      · exact h2.symm
      · rename_i h4; simp at h4
  subst e
  have g := read_force hd'.inv env up c con d hk hb hr hw ci.fd (by rw [cmdsOf_wire _ _ hd]; exact hcmd) h1
  exact ⟨g.1, fun x hx => (g.2 x hx).evicted (hd'.inv.oi x).cap henv⟩

/-- Two writers are thrown out by client 13; both are told. -/
example : let w := Demo.after (Demo.three ++ [.check (Demo.con true)])
    Reachable Demo.env w ∧ w.wait[0]? = some (Demo.con true) ∧ 13 ∉ w.live ∧
    (w.obj 0).writers = [10, 11] ∧ ((Demo.after (Demo.three ++ [.check (Demo.con true), .grant 13 0])).obj 0).writers = [13] ∧
    ((Demo.after (Demo.three ++ [.check (Demo.con true), .grant 13 0])).obj 11).eof = true :=
  ⟨Demo.reach _ (by decide +kernel), by decide +kernel, by decide +kernel, by decide +kernel, by decide +kernel,
    by decide +kernel⟩

/-- The monitoring client 12 sends F. -/
example : let w := Demo.after Demo.three
    Reachable Demo.env w ∧ (w.obj 12).kind = .client ∧ 12 ∈ w.live ∧ (w.obj 12).eof = false ∧
    (w.obj 12).readers = [] ∧ (w.obj 12).writers = [0] ∧ wireCommands (w.obj 12).gotEscape [0xFF, 0x46] = [0x46] ∧
    (w.step Demo.env (.poll 12 true (some (.data [0xFF, 0x46])) none)).isSome = true :=
  ⟨Demo.reach _ (by decide +kernel), by decide +kernel, by decide +kernel, by decide +kernel, by decide +kernel,
    by decide +kernel, by decide +kernel, by decide +kernel⟩

/-! ### C11 -/

/-- C11, what holds. A client's write access to a console comes from its own request or from
a command F, J or M it sent itself: nothing else ever gives it. -/
theorem C11_access_sources_partial {env : Env} {w w' : World} (h : Reachable env w) (s : Step)
    (hs : w.step env s = some w') (c con : Nat) (hk : (w'.obj con).kind.isConsole = true)
    (hnew : con ∈ (w'.obj c).readers) (hold : con ∉ (w.obj c).readers) :
    (∃ k q, s = .grant c k ∧ w.wait[k]? = some q ∧ q.cmd = .connect ∧ con ∈ q.consoles) ∨
    (∃ up d wr, s = .poll c up (some (.data d)) wr ∧ (w.obj c).writers = [con] ∧
      (wireCommands (w.obj c).gotEscape (d.take 8191)).any modeSwitch = true) := by
  rcases (step_links h.inv s hs).2 c con hnew with h1 | h1
  · exact absurd h1 hold
  rcases h1 with ⟨c', k, q, hs', hq, h2⟩ | ⟨up, d, wr, hs', _, hw, hc⟩
  · rcases h2 with ⟨rfl, h3, h4⟩ | ⟨rfl, h3⟩
    · exact Or.inl ⟨k, q, hs', hq, h4, h3⟩
    · exfalso
      -- the object `con` would be the new client
      subst hs'
      simp only [World.step, hq, Option.some.injEq] at hs
      by_cases hl : con ∈ w.live
      · rw [if_pos hl] at hs; subst hs; exact hold hnew
      · rw [if_neg hl] at hs
        obtain ⟨hsh, hok⟩ := h.inv.wait q (List.mem_of_getElem? hq)
        have := (grant_inv ((h.inv.unwait (w.wait.eraseIdx k) (fun q hq => List.mem_of_mem_eraseIdx hq)).inv) env con q hsh hl hok).2
        have kk := grant_own ((h.inv.unwait (w.wait.eraseIdx k) (fun q hq => List.mem_of_mem_eraseIdx hq)).inv) env con q hl hok
        rw [← hs, kk.kind, newClient_obj, if_pos rfl] at hk
        simp [OKind.isConsole] at hk
  · refine Or.inr ⟨up, d, wr, hs', hw, ?_⟩
    rw [← isSwitch_eq, ← cmdsOf_wire _ _ (by simp; omega)]
    unfold cmdsOf at hc ⊢
    rwa [List.take_take, show min readBufSize 8191 = readBufSize from rfl]

/-- C11, what holds. If no other request is being handled at the same time, a connect
request with neither force nor join gives write access only to a console that nobody can write to;
afterwards the new client is its only writer. -/
theorem C11_exclusive_partial {env : Env} {w w' : World} (h : Reachable env w) (q : Req) (c con : Nat)
    (hw : w.wait = []) (hc : c ∉ w.live) (hf : q.force = false) (hj : q.join = false)
    (hs : w.run env [.check q, .grant c 0] = some w') (hg : con ∈ (w'.obj c).readers) :
    (w.obj con).writers = [] ∧ (w'.obj con).writers = [c] := by
  simp only [World.run, World.step, Option.bind_some, Option.some.injEq] at hs
  by_cases hv : w.reqOk q.norm ∧ w.validate q.norm = none
  · simp only [if_pos hv] at hs
    simp only [hw, List.nil_append, List.getElem?_cons_zero, if_neg hc] at hs
    have hd0 : DInv ({ w with wait := [], tick := w.tick + 1 } : World) :=
      (h.inv.unwait [] (by simp)).tick _
    have hshape := validate_shape hv.2
    have hok : ({ w with wait := [], tick := w.tick + 1 } : World).reqOk q.norm := hv.1
    have gl := grant_links hd0.inv env c q.norm hc hok
    have gi := grant_inv hd0.inv env c q.norm hshape hc hok
    have e : w' = { ({ w with wait := [], tick := w.tick + 1 } : World).grant env c q.norm with
        tick := (({ w with wait := [], tick := w.tick + 1 } : World).grant env c q.norm).tick + 1 } := by
      rw [← hs]; rfl
    have eo : w'.obj = (({ w with wait := [], tick := w.tick + 1 } : World).grant env c q.norm).obj := by rw [e]
    rw [eo] at hg ⊢
    obtain ⟨hfr, hfw, hno⟩ := h.inv.inv.l.fresh hc
    have hcon : con ∈ q.norm.consoles ∧ q.norm.cmd = .connect := by
      rcases gl.2 c con hg with h1 | ⟨_, h1⟩ | ⟨h1, h2⟩
      · have : con ∈ (w.obj c).readers := h1
        rw [hfr] at this; simp at this
      · exact h1
      · subst h1; exact absurd (hv.1.2 _ h2).1 hc
    have hne : con ≠ c := by rintro rfl; exact hc (hv.1.2 _ hcon.1).1
    have hnorm : q.norm.force = false ∧ q.norm.join = false := by
      unfold Req.norm; split <;> exact ⟨hf, hj⟩
    have hfree : (w.obj con).writers = [] := by
      have hv2 := hv.2
      unfold World.validate at hv2
      split at hv2
      · simp at hv2
      split at hv2
      · simp at hv2
      split at hv2
      · simp at hv2
      · rename_i hb
        simp only [hcon.2, hnorm.1, hnorm.2, true_and, Bool.false_eq_true, or_self, not_false_eq_true,
          Bool.not_eq_true, List.any_eq_false, Bool.not_eq_true', Bool.not_eq_false',
          List.isEmpty_iff] at hb
        have := hb con hcon.1
        simpa using this
    refine ⟨hfree, ?_⟩
    have all : ∀ a ∈ ((({ w with wait := [], tick := w.tick + 1 } : World).grant env c q.norm).obj con).writers, a = c := by
      intro a ha
      have hr := (gi.1.l.sym a con).2 ha
      rcases gl.2 a con hr with h1 | ⟨h1, _⟩ | ⟨h1, _⟩
      · have : a ∈ (w.obj con).writers := (h.inv.inv.l.sym a con).1 h1
        rw [hfree] at this; simp at this
      · exact h1
      · exact absurd h1 hne
    have hmem := (gi.1.l.sym c con).1 hg
    have nd := gi.1.l.ndW con
    generalize ((({ w with wait := [], tick := w.tick + 1 } : World).grant env c q.norm).obj con).writers = l at all hmem nd
    match l, all, hmem, nd with
    | [a], all, _, _ => rw [all a (by simp)]
    | a :: b :: t, all, _, nd =>
      exfalso
      have h1 := all a (by simp)
      have h2 := all b (by simp)
      rw [h1, h2] at nd; simp at nd
  · simp only [if_neg hv, hw, List.getElem?_nil] at hs
    have e : w'.obj = w.obj := by rw [← hs]
    obtain ⟨hfr, _, _⟩ := h.inv.inv.l.fresh hc
    rw [e, hfr] at hg; simp at hg

example : let w := Demo.after [.connUp 0]
    Reachable Demo.env w ∧ w.wait = [] ∧ 10 ∉ w.live ∧ (Demo.con.force = false ∧ Demo.con.join = false) ∧
    0 ∈ ((Demo.after [.connUp 0, .check Demo.con, .grant 10 0]).obj 10).readers :=
  ⟨Demo.reach _ (by decide +kernel), by decide +kernel, by decide +kernel, by decide +kernel, by decide +kernel⟩

/-- Finding against C11. Two requests are checked before either is carried out (they are handled
by separate threads, with no lock held from the check to the link): both clients get write access, without
force or join. -/
theorem C11_check_then_link_race :
    let w := Demo.after [.connUp 0, .check Demo.con, .check Demo.con, .grant 10 0, .grant 11 0]
    Reachable Demo.env w ∧ (w.obj 0).writers = [10, 11] ∧
    (w.obj 11).force = false ∧ (w.obj 11).join = false :=
  ⟨Demo.reach _ (by decide +kernel), by decide +kernel, by decide +kernel, by decide +kernel⟩

/-- Finding against C11. A monitoring client gets write access to a busy console with the
command M, which asks for neither force nor join (the client program does not send M in read-only mode). -/
theorem C11_monitor_command_joins :
    let w := Demo.after (Demo.one ++ [.check Demo.mon, .grant 11 0, .poll 11 true (some (.data [0xFF, 0x4D])) none])
    Reachable Demo.env w ∧ (w.obj 0).writers = [10, 11] ∧
    (w.obj 11).force = false ∧ (w.obj 11).join = false :=
  ⟨Demo.reach _ (by decide +kernel), by decide +kernel, by decide +kernel, by decide +kernel⟩

/-! ### C12 -/

/-- C12, what holds. Whatever a read-only client sends that contains no command F, J or M:
no console's waiting bytes change, no console gets a break, no reset starts, nothing is sent to anyone but
the client itself, and the client stays read-only. -/
theorem C12_read_only_partial {env : Env} {w w' : World} (h : Reachable env w) (c : Nat) (up : Bool)
    (rd : Option ReadRes) (wr : Option WriteRes)
    (hk : (w.obj c).kind = .client) (hr : (w.obj c).readers = [])
    (hcmd : ∀ d, rd = some (.data d) → (wireCommands (w.obj c).gotEscape (d.take 8191)).any modeSwitch = false)
    (hs : w.step env (.poll c up rd wr) = some w') :
    (∀ con, (w.obj con).kind.isConsole = true → (w'.obj con).pend = (w.obj con).pend) ∧
    (w'.fx = w.fx ∨ ∃ d, w'.fx = w.fx ++ [.sent c d]) ∧ w'.running = w.running ∧ (w'.obj c).readers = [] := by
  have hi := h.inv.inv
  simp only [World.step] at hs
  split at hs
  · simp only [Option.some.injEq] at hs; subst hs
    exact ⟨fun _ _ => rfl, Or.inl rfl, rfl, hr⟩
  simp only [Option.map_eq_some_iff] at hs
  obtain ⟨w1, h1, h2⟩ := hs
  have a : WInv w1 ∧ (w1.obj c).kind = .client ∧
      (∀ j, (w.obj j).kind.isConsole = true → (w1.obj j).kind.isConsole = true ∧ (w1.obj j).pend = (w.obj j).pend) ∧ w1.fx = w.fx ∧
      w1.running = w.running ∧ (w1.obj c).readers = [] := by
    cases rd with
    | none =>
      simp only [Option.some.injEq] at h1; subst h1
      exact ⟨hi, hk, fun _ h => ⟨h, rfl⟩, rfl, rfl, hr⟩
    | some r =>
      have i1 := read_inv hi env up c r h1
      obtain ⟨b1, b2, b3, b4⟩ := read_ro hi env up c r hk hr (fun d hd => by
        subst hd
        have := hcmd d rfl
        rw [isSwitch_eq]
        unfold cmdsOf
        rw [(unescRef_wire _ _).2]
        exact this) h1
      refine ⟨i1.1, by rw [i1.2.kind]; exact hk, fun j hj => ⟨by rw [i1.2.kind]; exact hj, b1 j hj⟩, b2, b3, b4⟩
  obtain ⟨a1, a2, a3, a4, a5, a6⟩ := a
  have triv : w' = w1 → (∀ con, (w.obj con).kind.isConsole = true → (w'.obj con).pend = (w.obj con).pend) ∧
    (w'.fx = w.fx ∨ ∃ d, w'.fx = w.fx ++ [.sent c d]) ∧ w'.running = w.running ∧ (w'.obj c).readers = [] := by
    rintro rfl; exact ⟨fun j hj => (a3 j hj).2, Or.inl a4, a5, a6⟩
  split at h2
  · exact triv h2.symm
  split at h2
  · exact triv h2.symm
  · rename_i r _
    subst h2
    obtain ⟨f1, f2⟩ := flush_fx a1 env up c r
    refine ⟨fun j hj => ?_, by rw [a4] at f1; exact f1, by rw [f2, a5], ?_⟩
    · have hjc : j ≠ c := by rintro rfl; exact not_client_of_console hj hk
      rw [((flush_estep a1 env up c r (fun _ => false)) j hjc).console_pend (a3 j hj).1 |>.1, (a3 j hj).2]
    · cases hh : ((w1.flush env up c r).obj c).readers with
      | nil => rfl
      | cons x t =>
        have := (flush_links a1 env up c r).2 c x (by rw [hh]; simp)
        rw [a6] at this; simp at this

/-- The monitoring client 12 types "ab", a break and a reset. -/
example : let w := Demo.after Demo.three
    Reachable Demo.env w ∧ (w.obj 12).kind = .client ∧ (w.obj 12).readers = [] ∧
    wireCommands (w.obj 12).gotEscape [0x61, 0xFF, 0x42, 0x62, 0xFF, 0x52] = [0x42, 0x52] ∧
    (w.step Demo.env (.poll 12 true (some (.data [0x61, 0xFF, 0x42, 0x62, 0xFF, 0x52])) none)).isSome = true :=
  ⟨Demo.reach _ (by decide +kernel), by decide +kernel, by decide +kernel, by decide +kernel, by decide +kernel⟩

/-- Finding against C12. Bytes a client sent while it was read-only reach the console if the command
that makes it read-write arrives in the same read: the 'a' was sent before J. -/
theorem C12_bytes_before_join_leak :
    let w := Demo.after Demo.three
    let w' := Demo.after (Demo.three ++ [.poll 12 true (some (.data [0x61, 0xFF, 0x4A])) none])
    Reachable Demo.env w ∧ (w.obj 12).readers = [] ∧ (w.obj 0).pend = [] ∧ (w'.obj 0).pend = [0x61] :=
  ⟨Demo.reach _ (by decide +kernel), by decide +kernel, by decide +kernel, by decide +kernel⟩

/-! ### C48 -/

/-- C48. The decision on a request: each error exactly in its documented case, in this order. -/
theorem C48_request_validation (w : World) (cmd : ReqCmd) (force join bcast : Bool) (consoles : List Nat) :
    (validateReq w cmd force join bcast consoles = some .noConsoles ↔ consoles = []) ∧
    (validateReq w cmd force join bcast consoles = some .tooMany ↔
      2 ≤ consoles.length ∧ cmd ≠ .query ∧ ¬ (cmd = .connect ∧ bcast = true)) ∧
    (validateReq w cmd force join bcast consoles = some .busy ↔
      (consoles.length = 1 ∨ 2 ≤ consoles.length ∧ bcast = true) ∧
      cmd = .connect ∧ force = false ∧ join = false ∧ ∃ con ∈ consoles, (w.obj con).writers ≠ []) := by
  have hb : (consoles.filter (fun c => !(w.obj c).writers.isEmpty)).isEmpty = false ↔
      ∃ con ∈ consoles, (w.obj con).writers ≠ [] := by
    rw [List.isEmpty_eq_false_iff]
    constructor
    · intro hh
      obtain ⟨x, t, ht⟩ := List.exists_cons_of_ne_nil hh
      have hx : x ∈ consoles.filter (fun c => !(w.obj c).writers.isEmpty) := by rw [ht]; simp
      obtain ⟨h1, h2⟩ := List.mem_filter.1 hx
      exact ⟨x, h1, by simpa using h2⟩
    · rintro ⟨x, h1, h2⟩ hh
      have : x ∈ consoles.filter (fun c => !(w.obj c).writers.isEmpty) := List.mem_filter.2 ⟨h1, by simpa using h2⟩
      rw [hh] at this; simp at this
  match consoles with
  | [] => simp [validateReq]
  | [a] =>
    simp only [validateReq, tooManyConsoles, busyConsoles, List.length_cons, List.length_nil] at hb ⊢
    cases cmd <;> cases force <;> cases join <;> simp at hb ⊢
  | a :: b :: t =>
    have hl : (a :: b :: t).length ≠ 1 := by simp
    have hl2 : 2 ≤ (a :: b :: t).length := by simp
    generalize hcs : (a :: b :: t) = cs at hb hl hl2 ⊢
    have hne : cs ≠ [] := by rw [← hcs]; simp
    cases cmd <;> cases force <;> cases join <;> cases bcast <;>
      simp [validateReq, tooManyConsoles, busyConsoles, hl, hl2, hne, hb]
    all_goals (rw [← hb]; simp)

/-- C48. The daemon accepts a request for monitoring or connecting exactly when this decision is no
error; a refused request changes nothing. -/
theorem C48_check_step {env : Env} {w w' : World} (q : Req) (hok : w.reqOk q) (hs : w.step env (.check q) = some w') :
    w' = { w with wait := w.wait ++
      (if validateReq w (ReqCmd.toCmd q.cmd) q.force q.join q.bcast q.consoles = none then [q.norm] else []) } := by
  have hn : q.norm.consoles = q.consoles ∧ q.norm.cmd = q.cmd ∧ q.norm.force = q.force ∧ q.norm.join = q.join ∧
      q.norm.bcast = (if q.consoles.length = 1 then false else q.bcast) := by
    unfold Req.norm; split <;> simp_all
  have hok' : w.reqOk q.norm := by
    unfold World.reqOk; rw [hn.1]; exact hok
  have hv : w.validate q.norm = validateReq w (ReqCmd.toCmd q.cmd) q.force q.join q.bcast q.consoles := by
    unfold World.validate validateReq tooManyConsoles busyConsoles
    rw [hn.1, hn.2.1, hn.2.2.1, hn.2.2.2.1, hn.2.2.2.2]
    have hany : ∀ l : List Nat, (!(l.filter (fun c => !(w.obj c).writers.isEmpty)).isEmpty) =
        l.any (fun c => !(w.obj c).writers.isEmpty) := by
      intro l
      induction l with
      | nil => rfl
      | cons a l ih => rw [List.filter_cons, List.any_cons]; split <;> simp_all
    cases q.cmd <;> cases q.force <;> cases q.join <;> simp [ReqCmd.toCmd, hany] <;> split <;> simp_all
    all_goals (split <;> simp_all)
  simp only [World.step, Option.some.injEq] at hs
  rw [← hs, hv]
  by_cases hh : validateReq w (ReqCmd.toCmd q.cmd) q.force q.join q.bcast q.consoles = none
  · rw [if_pos ⟨hok', hh⟩, if_pos hh]
  · rw [if_neg (fun h => hh h.2), if_neg hh, List.append_nil]

/-- C48. An accepted request is granted: afterwards the new client writes to all consoles it asked to connect
to, and reads the console unless it is a broadcast; a monitoring client reads only. -/
theorem C48_request_granted {env : Env} {w w' : World} (h : Reachable env w) (c k : Nat) (q : Req)
    (hq : w.wait[k]? = some q) (hc : c ∉ w.live) (hs : w.step env (.grant c k) = some w') :
    (q.cmd = .connect → (w'.obj c).readers = q.consoles ∧
      (w'.obj c).writers = if q.consoles.length = 1 then q.consoles else []) ∧
    (q.cmd = .monitor → (w'.obj c).readers = [] ∧ ∃ con, q.consoles = [con] ∧ (w'.obj c).writers = [con]) := by
  have hd := h.inv
  obtain ⟨hsh, hok⟩ := hd.wait q (List.mem_of_getElem? hq)
  simp only [World.step, hq, if_neg hc, Option.some.injEq] at hs
  subst hs
  have hd' := hd.unwait (w.wait.eraseIdx k) (fun q hq => List.mem_of_mem_eraseIdx hq)
  obtain ⟨g1, g2⟩ := grant_result hd'.inv env c q hc hok hsh.ne
  constructor
  · intro hcm
    rw [g1, g2, if_pos hcm, if_pos hcm]; exact ⟨rfl, rfl⟩
  · intro hcm
    have hl : q.consoles.length = 1 := by
      apply Decidable.by_contra
      intro hl; have := (hsh.many hl).2; rw [hcm] at this; simp at this
    obtain ⟨con, hcon⟩ := List.length_eq_one_iff.1 hl
    refine ⟨by rw [g1, hcm]; rfl, con, hcon, by rw [g2, hcm, hcon]; rfl⟩

/-- A broadcast to both consoles; a busy console; two consoles without broadcast. -/
example : let w := Demo.after Demo.one
    validateReq w .connect false true true [0, 2] = none ∧ validateReq w .connect false false false [0] = some .busy ∧
    validateReq w .monitor false false true [0, 2] = some .tooMany ∧ validateReq w .query false false false [0, 2] = none := by
  decide +kernel

example : let w := Demo.after (Demo.one ++ [.check ⟨.connect, [0, 2], false, true, true, false⟩])
    Reachable Demo.env w ∧ 11 ∉ w.live ∧ w.wait[0]? = some ⟨.connect, [0, 2], false, true, true, false⟩ ∧
    (((w.step Demo.env (.grant 11 0)).getD w).obj 11).readers = [0, 2] :=
  ⟨Demo.reach _ (by decide +kernel), by decide +kernel, by decide +kernel, by decide +kernel⟩

/-! ### C64 -/

theorem queryGlob_inner {Pat Obj : Type} [DecidableEq Obj] (hit : Pat → Obj → Bool) (pat : Pat) (objs : List Obj) : ∀ ms : List Obj, ms.Nodup →
    (objs.foldl (fun ms obj => if hit pat obj && !ms.contains obj then ms ++ [obj] else ms) ms).Nodup ∧
    ∀ x, x ∈ objs.foldl (fun ms obj => if hit pat obj && !ms.contains obj then ms ++ [obj] else ms) ms ↔
      x ∈ ms ∨ (x ∈ objs ∧ hit pat x = true) := by
  induction objs with
  | nil => intro ms h; simp [h]
  | cons o objs ih =>
    intro ms h
    rw [List.foldl_cons]
    by_cases hc : (hit pat o && !ms.contains o) = true
    · rw [if_pos hc]
      simp only [Bool.and_eq_true, Bool.not_eq_true', List.contains_eq_mem, decide_eq_false_iff_not] at hc
      have hn : (ms ++ [o]).Nodup := by
        rw [List.nodup_append]
        refine ⟨h, by simp, ?_⟩
        rintro a ha b hb rfl
        simp only [List.mem_singleton] at hb; subst hb; exact hc.2 ha
      refine ⟨(ih _ hn).1, fun x => ?_⟩
      rw [(ih _ hn).2]
      simp only [List.mem_append, List.mem_cons, List.not_mem_nil, or_false]
      constructor
      · rintro ((h1 | rfl) | h1)
        · exact Or.inl h1
        · exact Or.inr ⟨Or.inl rfl, hc.1⟩
        · exact Or.inr ⟨Or.inr h1.1, h1.2⟩
      · rintro (h1 | ⟨rfl | h1, h2⟩)
        · exact Or.inl (Or.inl h1)
        · exact Or.inl (Or.inr rfl)
        · exact Or.inr ⟨h1, h2⟩
    · rw [if_neg hc]
      refine ⟨(ih _ h).1, fun x => ?_⟩
      rw [(ih _ h).2]
      simp only [Bool.and_eq_true, Bool.not_eq_true', List.contains_eq_mem, decide_eq_false_iff_not, not_and,
        Decidable.not_not] at hc
      simp only [List.mem_cons]
      constructor
      · rintro (h1 | h1)
        · exact Or.inl h1
        · exact Or.inr ⟨Or.inr h1.1, h1.2⟩
      · rintro (h1 | ⟨rfl | h1, h2⟩)
        · exact Or.inl h1
        · exact Or.inl (hc h2)
        · exact Or.inr ⟨h1, h2⟩

/-- C64. A request selects exactly the consoles whose names match one of its patterns, each once; a query
without patterns selects those matching "*" (or ".*"). -/
theorem C64_selection {Pat Obj : Type} [DecidableEq Obj] (hit : Pat → Obj → Bool) (all : Pat) (objs : List Obj) (pats : List Pat) :
    (queryGlob hit all objs pats).Nodup ∧
    ∀ x, x ∈ queryGlob hit all objs pats ↔
      x ∈ objs ∧ ∃ pat, (pat ∈ pats ∨ pats = [] ∧ pat = all) ∧ hit pat x = true := by
  have key : ∀ (ps : List Pat) (ms : List Obj), ms.Nodup →
      (ps.foldl (fun ms pat => objs.foldl (fun ms obj => if hit pat obj && !ms.contains obj then ms ++ [obj] else ms) ms) ms).Nodup ∧
      ∀ x, x ∈ ps.foldl (fun ms pat => objs.foldl (fun ms obj => if hit pat obj && !ms.contains obj then ms ++ [obj] else ms) ms) ms ↔
        x ∈ ms ∨ (x ∈ objs ∧ ∃ pat ∈ ps, hit pat x = true) := by
    intro ps
    induction ps with
    | nil => intro ms h; simp [h]
    | cons p ps ih =>
      intro ms h
      rw [List.foldl_cons]
      obtain ⟨i1, i2⟩ := queryGlob_inner hit p objs ms h
      refine ⟨(ih _ i1).1, fun x => ?_⟩
      rw [(ih _ i1).2, i2]
      simp only [List.mem_cons, exists_eq_or_imp]
      constructor
      · rintro ((h1 | h1) | h1)
        · exact Or.inl h1
        · exact Or.inr ⟨h1.1, Or.inl h1.2⟩
        · exact Or.inr ⟨h1.1, Or.inr h1.2⟩
      · rintro (h1 | ⟨h1, h2 | h2⟩)
        · exact Or.inl (Or.inl h1)
        · exact Or.inl (Or.inr ⟨h1, h2⟩)
        · exact Or.inr ⟨h1, h2⟩
  unfold queryGlob
  cases pats with
  | nil =>
    have := key [all] [] (by simp)
    refine ⟨this.1, fun x => ?_⟩
    rw [show (if ([] : List Pat).isEmpty then [all] else []) = [all] from rfl, this.2]
    simp
  | cons p ps =>
    have := key (p :: ps) [] (by simp)
    refine ⟨this.1, fun x => ?_⟩
    rw [show (if (p :: ps).isEmpty then [all] else p :: ps) = p :: ps from rfl, this.2]
    simp

/-- Two overlapping patterns. -/
example : queryGlob (fun p x => x % p == 0) 1 [4, 6, 9, 12] [6, 4] = [6, 12, 4] ∧
    queryGlob (fun p x => x % p == 0) 1 [4, 6, 9, 12] [] = [4, 6, 9, 12] := by decide

end Conman
