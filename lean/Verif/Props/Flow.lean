import Verif.Lemma.WorldFeed
import Verif.Spec.Demo

/-
C05, C06, C50, C51: data on its way through the daemon.

`(w.obj i).pend` are the bytes waiting for the descriptor of object `i`, `sentTo i w.fx` the bytes that left by
it so far, `(w.obj i).gen` counts how often it was shut down.
-/
namespace Conman
open Spec

/-! ### C05 -/

/-- C05 (partial). An object is marked end-of-file.  Through any history, as long as it was not shut down, nothing
was added to its waiting bytes: they are what was waiting then, less a prefix, and that prefix was sent.
Missing: `C05_idle_not_closed`, `C05_suspended_stuck` refute that it is shut down at once when nothing is pending and
that it is always drained in the end. -/
theorem C05_no_more_data_partial {env : Env} {w w' : World} (h : Reachable env w) (i : Nat) (hl : i ∈ w.live)
    (he : (w.obj i).eof = true) (ss : List Step) (hr : w.run env ss = some w')
    (hg : (w'.obj i).gen = (w.obj i).gen) :
    (w'.obj i).eof = true ∧ i ∈ w'.live ∧
    ∃ n, (w'.obj i).pend = (w.obj i).pend.drop n ∧ sentTo i w'.fx = sentTo i w.fx ++ (w.obj i).pend.take n :=
  eof_run i ss h.finv hl he hr hg

/-- C05. An object marked end-of-file is shut down only by a poll of itself, and only if reading or
writing fails or when all its waiting bytes have been sent; while bytes wait that were not sent, it stays open. -/
theorem C05_closed_only_when_drained {env : Env} {w w' : World} (h : Reachable env w) (i : Nat) (hl : i ∈ w.live)
    (he : (w.obj i).eof = true) (s : Step) (hs : w.step env s = some w') :
    ((w'.obj i).gen = (w.obj i).gen ∧ ((w.obj i).pend ≠ [] → (w'.obj i).pend ≠ [])) ∨
    ((w'.obj i).gen = (w.obj i).gen + 1 ∧ ∃ up rd wr, s = .poll i up rd wr ∧
      (rd = some .err ∨ wr = some .err ∨ sentTo i w'.fx = sentTo i w.fx ++ (w.obj i).pend)) := by
  rcases eof_step h.finv s hs i hl he with ⟨g1, _, _, _, _, _, _, g2⟩ | g
  · exact Or.inl ⟨g1, g2⟩
  · exact Or.inr g

/-- C05. The flush that sends the last waiting byte of an object marked end-of-file shuts it down. -/
theorem C05_last_byte_closes {env : Env} {w w' : World} (h : Reachable env w) (i : Nat) (hl : i ∈ w.live)
    (he : (w.obj i).eof = true) (hp : (w.obj i).pout = true) (up : Bool) (n : Nat) (hn : (w.obj i).pend.length ≤ n)
    (hs : w.step env (.poll i up none (some (.accept n))) = some w') :
    (w'.obj i).gen = (w.obj i).gen + 1 ∧ sentTo i w'.fx = sentTo i w.fx ++ (w.obj i).pend := by
  have x0 := h.finv.x i hl
  simp only [World.step] at hs
  rw [if_neg (by simp [hl, hp])] at hs
  simp only [Option.map_some, Option.some.injEq] at hs
  rw [if_neg (by simp [hl]), if_pos hp] at hs
  subst hs
  obtain ⟨m, f1, f2, f3, f4⟩ := flush_self h.inv.inv env up i (.accept n) (x0.eofFd he)
    (fun hpd => by rw [(x0.pending hpd).2] at he; simp at he)
  have hm := f3 n rfl
  rw [Nat.min_eq_right hn] at hm
  subst hm
  rw [List.take_length] at f2
  refine ⟨?_, f2⟩
  rcases f4 with ⟨_, g2, _, _, g5⟩ | ⟨g1, _⟩
  · rw [List.drop_length] at g2; exact absurd g2 (g5 he)
  · exact g1

/-- C05. A client marked end-of-file with bytes waiting is polled for writing, unless it is suspended. -/
theorem C05_draining_polled {env : Env} {w : World} (h : Reachable env w) (c : Nat) (hl : c ∈ w.live)
    (hk : (w.obj c).kind = .client) (hp : (w.obj c).pend ≠ []) (hz : (w.obj c).suspend = false) :
    (w.obj c).pout = true :=
  (h.finv.e.cl c hl hk).pout hp hz

/-- Client 11 takes the console from client 10, which has two messages waiting. -/
def Demo.stolen : List Step := Demo.one ++ [.check (Demo.con true), .grant 11 0]

example : let w := Demo.after Demo.stolen
    Reachable Demo.env w ∧ 10 ∈ w.live ∧ (w.obj 10).kind = .client ∧ (w.obj 10).eof = true ∧ (w.obj 10).pout = true ∧
    (w.obj 10).suspend = false ∧ (w.obj 10).pend = [0x53] ∧
    ((Demo.after (Demo.stolen ++ [.poll 10 true none (some (.accept 5))])).obj 10).gen = (w.obj 10).gen + 1 :=
  ⟨Demo.reach _ (by decide +kernel), by decide +kernel, by decide +kernel, by decide +kernel, by decide +kernel, by decide +kernel,
    by decide +kernel, by decide +kernel⟩

/-- Finding (refutes part of C05). A quiet client whose console was taken has nothing pending, yet it is not
shut down: it stays, marked end-of-file, and is not polled for writing. -/
theorem C05_idle_not_closed :
    ∃ w, Reachable Demo.env w ∧ 10 ∈ w.live ∧ (w.obj 10).kind = .client ∧ (w.obj 10).eof = true ∧ (w.obj 10).pend = [] ∧
      (w.obj 10).fd = true ∧ (w.obj 10).pout = false :=
  ⟨Demo.after [.connUp 0, .check ⟨.connect, [0], false, false, false, true⟩, .grant 10 0, .check (Demo.con true), .grant 11 0],
    Demo.reach _ (by decide +kernel), by decide +kernel, by decide +kernel, by decide +kernel, by decide +kernel, by decide +kernel,
    by decide +kernel⟩

/-- Finding (refutes part of C05). A client that is suspended when its connection reaches end-of-file while bytes wait
for it is polled for neither reading nor writing; whatever happens afterwards, it is never drained or closed. -/
theorem C05_suspended_stuck {env : Env} {w w' : World} (h : Reachable env w) (c : Nat) (hl : c ∈ w.live)
    (hk : (w.obj c).kind = .client) (he : (w.obj c).eof = true) (hin : (w.obj c).pin = false) (hz : (w.obj c).suspend = true)
    (ss : List Step) (hr : w.run env ss = some w') :
    c ∈ w'.live ∧ (w'.obj c).eof = true ∧ (w'.obj c).fd = true ∧ (w'.obj c).pend = (w.obj c).pend ∧
    sentTo c w'.fx = sentTo c w.fx := by
  have key : ∀ (ss : List Step) {v v' : World}, FInv v → c ∈ v.live → (v.obj c).kind = .client → (v.obj c).eof = true →
      (v.obj c).pin = false → (v.obj c).pout = false → v.run env ss = some v' →
      c ∈ v'.live ∧ (v'.obj c).eof = true ∧ (v'.obj c).fd = (v.obj c).fd ∧ (v'.obj c).pend = (v.obj c).pend ∧
      sentTo c v'.fx = sentTo c v.fx := by
    intro ss
    induction ss with
    | nil => intro v v' _ hl _ he _ _ hr; simp only [World.run, Option.some.injEq] at hr; subst hr; exact ⟨hl, he, rfl, rfl, rfl⟩
    | cons s ss ih =>
      intro v v' hv hl hk he hin hout hr
      simp only [World.run, Option.bind_eq_some_iff] at hr
      obtain ⟨v1, h1, h2⟩ := hr
      have hnp : ∀ up rd wr, s = .poll c up rd wr → v1 = v := by
        rintro up rd wr rfl
        simp only [World.step] at h1
        rw [if_pos (Or.inr ⟨hin, hout⟩)] at h1
        simpa using h1.symm
      have hat : AtEof (v.obj c) (v1.obj c) ∧ c ∈ v1.live := by
        by_cases hp : ∃ up rd wr, s = .poll c up rd wr
        · obtain ⟨up, rd, wr, e⟩ := hp
          rw [hnp up rd wr e]; exact ⟨.refl he, hl⟩
        by_cases ht : s.target = some c
        · refine ⟨?_, ?_⟩
          · rcases step_client_target s h1 hl hk ht (by intro up rd wr e; exact hp ⟨up, rd, wr, e⟩) with g | g
            · rw [g]; exact .refl he
            · rw [g]; exact ⟨he, rfl, rfl, rfl, rfl, rfl, rfl⟩
          · rcases eof_step hv s h1 c hl he with ⟨_, _, g, _⟩ | ⟨_, up, rd, wr, e, _⟩
            · exact g
            · exact absurd ⟨up, rd, wr, e⟩ hp
        · refine ⟨(step_ext hv.e.d env s h1 c ht).atEof he, ?_⟩
          rcases (step_live hv.e.d s h1).2.1 c hl with g | g
          · exact g
          · exact absurd g.1 ht
      have hfx : sentTo c v1.fx = sentTo c v.fx := by
        obtain ⟨l, e1, e2⟩ := step_sent env s h1
        rw [e1, sentTo_append, sentTo_none c l, List.append_nil]
        intro d hd
        have := (e2 c d hd).1
        rw [hout] at this; simp at this
      obtain ⟨a1, a2, a3, a4, a5⟩ := ih ((hv.step s h1).tick (v1.tick + 1)) hat.2 (by rw [hat.1.kind]; exact hk) hat.1.eof
        (by rw [hat.1.pin]; exact hin) (by rw [hat.1.pout]; exact hout) h2
      exact ⟨a1, a2, by rw [a3]; exact hat.1.fd, by rw [a4]; exact hat.1.pend, by rw [a5]; exact hfx⟩
  have ho := h.inv.inv.oi c
  obtain ⟨a1, a2, a3, a4, a5⟩ := key ss h.finv hl hk he hin (ho.susp hk hz) hr
  exact ⟨a1, a2, by rw [a3]; exact (h.finv.x c hl).client hk, a4, a5⟩

/-- Client 10 suspends its output, the console says "hi", and the client closes its side: it has bytes
waiting for ever and still counts as a writer of the console. -/
example : let w := Demo.after (Demo.one ++ [.poll 10 true (some (.data [0xFF, 0x5A])) none, .poll 0 true (some (.data [0x68, 0x69])) none,
      .poll 10 true (some .eof) none])
    Reachable Demo.env w ∧ 10 ∈ w.live ∧ (w.obj 10).kind = .client ∧ (w.obj 10).eof = true ∧ (w.obj 10).pin = false ∧
    (w.obj 10).suspend = true ∧ (w.obj 10).pend ≠ [] ∧ (w.obj 0).writers = [10] :=
  ⟨Demo.reach _ (by decide +kernel), by decide +kernel, by decide +kernel, by decide +kernel, by decide +kernel, by decide +kernel,
    by decide +kernel, by decide +kernel⟩

/-! ### C06 -/

/-- `d` was handed to the readers of `src`, once: it is appended to the waiting bytes of every client or console
reading from `src` (the newest 16383 bytes are kept), unless it is marked end-of-file; its log rendering is
appended to the waiting bytes of every log; nothing happens to any other object. -/
structure Fed (env : Env) (w w' : World) (src : Nat) (d : List UInt8) : Prop where
  reader : ∀ j ∈ (w.obj src).readers, (w.obj j).kind ≠ .logfile →
    (w'.obj j).pend = if (w.obj j).eof then (w.obj j).pend else lastN queueCap ((w.obj j).pend ++ d)
  log : ∀ j ∈ (w.obj src).readers, (w.obj j).kind = .logfile → d ≠ [] →
    ∃ st k txt, logChunks (w.obj j).opts (env.clk j) (w.obj j).line (w.obj j).stamps [d] = some (st, k, txt) ∧
      (w'.obj j).pend = lastN queueCap ((w.obj j).pend ++ txt)
  other : ∀ j, j ≠ src → j ∉ (w.obj src).readers → w'.obj j = w.obj j
  fx : w'.fx = w.fx

theorem fed_deliver {env : Env} (henv : ∀ i k, (env.clk i k).length = 20) {w v : World} (hw : WInv w) (hx : ∀ j ∈ w.live, XInv (w.obj j))
    (src : Nat) (d : List UInt8) (hd : d.length ≤ 8191)
    (hv : LInv v) (ho : ∀ j, j ≠ src → v.obj j = w.obj j) (hr : (v.obj src).readers = (w.obj src).readers) (hf : v.fx = w.fx) :
    Fed env w (v.deliver env src d) src d := by
  have hne : ∀ j ∈ (w.obj src).readers, j ≠ src := by
    rintro j hj rfl; exact hw.l.not_self _ hj
  have hcap : d.length ≤ queueCap := by unfold queueCap; omega
  by_cases h0 : d = []
  · subst h0
    rw [deliver_nil]
    refine ⟨fun j hj _ => ?_, fun _ _ _ h => absurd rfl h, fun j hj _ => ho j hj, hf⟩
    rw [ho j (hne j hj), List.append_nil]
    split
    · rfl
    · have := (hw.oi j).cap
      unfold lastN
      rw [Nat.sub_eq_zero_of_le this, List.drop_zero]
  obtain ⟨e1, e2⟩ := deliver_exact hv env src d h0
  rw [hr] at e1
  refine ⟨fun j hj hk => ?_, fun j hj hk _ => ?_, fun j hj hn => ?_, ?_⟩
  · rw [e1, if_pos hj, ho j (hne j hj), if_neg hk]
    cases he : (w.obj j).eof with
    | true => rw [Obj.write_of_eof _ _ _ he]; rfl
    | false =>
      rw [Obj.write_data_pend _ _ he (hw.oi j).cap, enq_le _ _ hcap, if_neg (by simp)]
  · rw [e1, if_pos hj, ho j (hne j hj), if_pos hk]
    exact Obj.writeLog_pend _ _ (henv j) d hcap ((hx j (hw.l.live _ _ hj).2).log hk) (hw.oi j).cap
  · rw [e1, if_neg hn, ho j hj]
  · have : (v.deliver env src d).fx = v.fx := (deliver_fx v env src d).1
    rw [this, hf]

/-- The step of reading `d` from `i`. -/
theorem poll_read {env : Env} {w w' : World} (h : Reachable env w) (i : Nat) (hl : i ∈ w.live)
    (hp : (w.obj i).pin = true ∨ (w.obj i).pout = true) (up : Bool) (r : ReadRes)
    (hs : w.step env (.poll i up (some r) none) = some w') :
    (w.obj i).fd = true ∧ w.read env up i r = some w' := by
  constructor
  · cases hf : (w.obj i).fd with
    | true => rfl
    | false =>
      have := (h.inv.inv.oi i).closed hf
      rcases hp with g | g
      · rw [this.1] at g; simp at g
      · rw [this.2] at g; simp at g
  · simp only [World.step] at hs
    rw [if_neg (by rcases hp with g | g <;> simp [hl, g])] at hs
    simp only [Option.map_eq_some_iff] at hs
    obtain ⟨w1, h1, h2⟩ := hs
    rw [h1]
    split at h2
    · rw [h2]
    · have : (if (w.obj i).pout = true then (none : Option WriteRes) else none) = none := by split <;> rfl
      rw [this] at h2
      rw [← h2]

/-- C06. Output of a console other than a telnet console. -/
theorem C06_console_output {env : Env} (henv : ∀ i k, (env.clk i k).length = 20) {w w' : World} (h : Reachable env w)
    (i : Nat) (hl : i ∈ w.live) (hc : (w.obj i).kind.isConsole = true) (ht : (w.obj i).kind ≠ .telnet)
    (hp : (w.obj i).pin = true ∨ (w.obj i).pout = true) (up : Bool) (d : List UInt8) (hd : d.length ≤ 8191)
    (hs : w.step env (.poll i up (some (.data d)) none) = some w') :
    Fed env w w' i d ∧ w'.obj i = w.obj i := by
  obtain ⟨hf, hr⟩ := poll_read h i hl hp up _ hs
  unfold World.read at hr
  rw [if_neg (by simp [hf]), if_neg (by simp [ht]), if_neg (by rintro hk; rw [hk] at hc; simp [OKind.isConsole] at hc)] at hr
  dsimp only at hr
  rw [List.take_of_length_le (by rw [readBufSize_eq]; exact hd)] at hr
  split at hr
  · rename_i hk; rw [hk] at hc; simp [OKind.isConsole] at hc
  · rename_i hk; exact absurd hk ht
  · simp only [Option.some.injEq] at hr; subst hr
    exact ⟨fed_deliver henv h.inv.inv h.finv.x i d hd h.inv.inv.l (fun _ _ => rfl) rfl rfl,
      deliver_other env i d (h.inv.inv.l.not_self i)⟩

/-- C06. Output of a telnet console: the readers get the application data, the replies of the telnet protocol go back
to the console. -/
theorem C06_telnet_output {env : Env} (henv : ∀ i k, (env.clk i k).length = 20) {w w' : World} (h : Reachable env w)
    (i : Nat) (hl : i ∈ w.live) (ht : (w.obj i).kind = .telnet) (hup : (w.obj i).conn = .up)
    (hp : (w.obj i).pin = true ∨ (w.obj i).pout = true) (up : Bool) (d : List UInt8) (hd : d.length ≤ 8191)
    (hs : w.step env (.poll i up (some (.data d)) none) = some w') :
    ∃ iac app replies, telChunks (w.obj i).iac [d] = some (iac, app, replies) ∧ Fed env w w' i app ∧ (w'.obj i).iac = iac ∧
      ((w.obj i).eof = false → (w'.obj i).pend = lastN queueCap ((w.obj i).pend ++ replies)) := by
  obtain ⟨hf, hr⟩ := poll_read h i hl hp up _ hs
  unfold World.read at hr
  rw [if_neg (by simp [hf]), if_neg (by simp [hup]), if_neg (by rw [ht]; simp)] at hr
  simp only [ht, Option.map_eq_some_iff] at hr
  rw [List.take_of_length_le (by rw [readBufSize_eq]; exact hd)] at hr
  obtain ⟨t, h1, rfl⟩ := hr
  obtain ⟨t', e1, e2⟩ := tel_ok (h.finv.x i hl).iac d
  rw [h1, Option.some.injEq] at e1
  subst e1
  have hns : i ∉ ((w.mod i (fun o => ({ o with iac := t.iac }).write t.sent false)).obj i).readers := by
    rw [World.mod_self]; simpa using h.inv.inv.l.not_self i
  have hsl : SL w (w.mod i (fun o => ({ o with iac := t.iac }).write t.sent false)) := by
    refine ⟨fun j => ?_, rfl⟩
    rw [World.mod_obj]; split
    · rename_i e; subst e; simp
    · exact ⟨rfl, rfl, rfl⟩
  have hlen : (t.buf.take t.len).length ≤ 8191 := by
    have ht' := telLoop_eq d 0 0 (w.obj i).iac [] (by omega) (by omega)
    unfold processTelnetEscapes at h1
    rw [h1, List.drop_zero] at ht'
    cases hr : telRef (w.obj i).iac d with
    | none => simp [hr, TelOut.trip] at ht'
    | some r =>
      simp only [hr, TelOut.trip] at ht'
      rw [List.length_take]; omega
  refine ⟨_, _, _, e2, ?_, ?_, ?_⟩
  · exact fed_deliver henv h.inv.inv h.finv.x i _ hlen (h.inv.inv.l.same hsl) (fun j hj => World.mod_ne _ _ hj)
      (by rw [World.mod_self]; simp) rfl
  · rw [deliver_other env i _ hns, World.mod_self, (SameFlags.write _ _ _).iac]
  · intro he
    rw [deliver_other env i _ hns, World.mod_self]
    have hw := Obj.write_data_pend { w.obj i with iac := t.iac } t.sent he (h.inv.inv.oi i).cap
    rw [hw]
    have := telChunks_len e2
    exact enq_le _ _ (by unfold queueCap; omega)

/-- C06. Keystrokes of a client, in a read without commands. -/
theorem C06_client_input {env : Env} (henv : ∀ i k, (env.clk i k).length = 20) {w w' : World} (h : Reachable env w)
    (c : Nat) (hl : c ∈ w.live) (hk : (w.obj c).kind = .client) (hp : (w.obj c).pin = true ∨ (w.obj c).pout = true) (up : Bool)
    (d : List UInt8) (hd : d.length ≤ 8191) (hcmd : wireCommands (w.obj c).gotEscape d = [])
    (hs : w.step env (.poll c up (some (.data d)) none) = some w') :
    Fed env w w' c (wireData (w.obj c).gotEscape d) := by
  obtain ⟨hf, hr⟩ := poll_read h c hl hp up _ hs
  unfold World.read at hr
  rw [if_neg (by simp [hf]), if_neg (by simp [hk]), if_neg (by rw [hk]; simp)] at hr
  simp only [hk, Option.map_eq_some_iff] at hr
  rw [List.take_of_length_le (by rw [readBufSize_eq]; exact hd)] at hr
  obtain ⟨w1, h1, rfl⟩ := hr
  obtain ⟨u1, u2, u3⟩ := unesc_data (w.obj c).gotEscape d
  rw [u2, hcmd] at h1
  simp only [World.acts, Option.some.injEq] at h1
  subst h1
  rw [u1]
  have hlen : (wireData (w.obj c).gotEscape d).length ≤ 8191 := by
    have : ∀ (l : List UInt8) e, (wireData e l).length ≤ l.length := by
      intro l
      induction l with
      | nil => intro e; simp [wireData]
      | cons b l ih =>
        intro e
        unfold wireData
        have a1 := ih false
        have a2 := ih (b = 0xFF)
        split
        · split <;> simp <;> omega
        · split <;> simp <;> omega
    exact Nat.le_trans (this d _) hd
  refine fed_deliver henv h.inv.inv h.finv.x c _ hlen (h.inv.inv.l.same ?_) (fun j hj => World.mod_ne _ _ hj)
      (by rw [World.mod_self]) rfl
  refine ⟨fun j => ?_, rfl⟩
  rw [World.mod_obj]; split
  · rename_i e; subst e; exact ⟨rfl, rfl, rfl⟩
  · exact ⟨rfl, rfl, rfl⟩

/-- Console 0 with its log and two clients; the text "hi" and a keystroke. -/
example : let w := Demo.after Demo.three
    let w' := Demo.after (Demo.three ++ [.poll 0 true (some (.data [0x68, 0x69])) none])
    let w'' := Demo.after (Demo.three ++ [.poll 10 true (some (.data [0x61, 0xFF, 0xFF])) none])
    Reachable Demo.env w ∧ (∀ i k, (Demo.env.clk i k).length = 20) ∧ 0 ∈ w.live ∧ (w.obj 0).kind.isConsole = true ∧
    (w.obj 0).kind ≠ .telnet ∧ (w.obj 0).pin = true ∧ (w.obj 0).readers = [1, 10, 11, 12] ∧
    (w'.obj 12).pend = (w.obj 12).pend ++ [0x68, 0x69] ∧ (w'.obj 1).pend = (w.obj 1).pend ++ [0x68, 0x69] ∧
    wireCommands (w.obj 10).gotEscape [0x61, 0xFF, 0xFF] = [] ∧ (w.obj 10).pin = true ∧
    (w''.obj 0).pend = (w.obj 0).pend ++ [0x61, 0xFF] :=
  ⟨Demo.reach _ (by decide +kernel), fun _ _ => by simp [Demo.env], by decide +kernel, by decide +kernel, by decide +kernel,
    by decide +kernel, by decide +kernel, by decide +kernel, by decide +kernel, by decide +kernel, by decide +kernel, by decide +kernel⟩

/-- The telnet console 2 with a client: data between telnet commands. -/
example : let ss := Demo.one ++ [.check ⟨.connect, [2], false, false, false, false⟩, .grant 13 0]
    let w := Demo.after ss
    Reachable Demo.env w ∧ 2 ∈ w.live ∧ (w.obj 2).kind = .telnet ∧ (w.obj 2).conn = .up ∧ (w.obj 2).pin = true ∧
    (w.obj 2).readers = [13] ∧ (w.obj 2).eof = false :=
  ⟨Demo.reach _ (by decide +kernel), by decide +kernel, by decide +kernel, by decide +kernel, by decide +kernel, by decide +kernel,
    by decide +kernel⟩

end Conman
