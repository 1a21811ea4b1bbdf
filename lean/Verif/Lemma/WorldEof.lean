import Verif.Lemma.WorldFlow
import Verif.Spec.Flow

/-
Invariants of single objects that concern end-of-file, connection state and the
telnet decoder; delivery of data.
-/
namespace Conman
open Spec

structure XInv (o : Obj) : Prop where
  eofFd : o.eof = true → o.fd = true
  log : o.kind = .logfile → o.eof = false
  pending : o.conn = .pending → o.kind = .telnet ∧ o.eof = false
  client : o.kind = .client → o.fd = true
  iac : iacOk o.iac

/-- Same in the fields `XInv` speaks of. -/
theorem XInv.same {o o' : Obj} (h : XInv o) (h1 : o'.kind = o.kind) (h2 : o'.fd = o.fd) (h3 : o'.conn = o.conn)
    (h4 : o'.iac = o.iac) (h5 : o'.eof = o.eof) : XInv o' :=
  ⟨by rw [h5, h2]; exact h.eofFd, by rw [h1, h5]; exact h.log, by rw [h3, h1, h5]; exact h.pending,
    by rw [h1, h2]; exact h.client, by rw [h4]; exact h.iac⟩

theorem XInv.write {o : Obj} (h : XInv o) (d : List UInt8) (b : Bool) : XInv (o.write d b) :=
  h.same (by simp) (by simp) (by simp) (SameFlags.write o d b).iac (by simp)

theorem XInv.passive {o o' : Obj} (p : Passive env o o') : XInv o → XInv o' := by
  induction p with
  | refl => exact id
  | trans _ _ h1 h2 => exact fun h => h2 (h1 h)
  | info o _ _ _ => exact fun h => h.write _ true
  | links => exact fun h => h.same rfl rfl rfl rfl rfl
  | orphan o hk =>
    intro h
    refine ⟨fun _ => h.client hk, fun hl => ?_, fun hp => ?_, h.client, h.iac⟩
    · rw [hk] at hl; simp at hl
    · have := (h.pending hp).1; rw [hk] at this; simp at this

theorem XInv.ext {b : Bool} {o o' : Obj} (p : Ext env b o o') : XInv o → XInv o' := by
  induction p with
  | refl => exact id
  | trans _ _ h1 h2 => exact fun h => h2 (h1 h)
  | pass p => exact XInv.passive p
  | reset => exact fun h => h.same rfl rfl rfl rfl rfl
  | data o d _ => exact fun h => h.write d false
  | log => exact fun h => h.same rfl rfl rfl rfl rfl

theorem XInv.own {b pp : Bool} {o o' : Obj} (p : COwn env b pp o o') : o.kind = .client → XInv o → XInv o' ∧ o'.kind = .client := by
  induction p with
  | refl => exact fun hk h => ⟨h, hk⟩
  | trans _ _ h1 h2 => exact fun hk h => h2 (h1 hk h).2 (h1 hk h).1
  | pass p => exact fun hk h => ⟨XInv.passive p h, by rw [p.kind]; exact hk⟩
  | data o d _ => exact fun hk h => ⟨h.write d false, by simpa using hk⟩
  | quiet => exact fun hk h => ⟨h.same rfl rfl rfl rfl rfl, hk⟩
  | flags => exact fun hk h => ⟨h.same rfl rfl rfl rfl rfl, hk⟩
  | susp => exact fun hk h => ⟨h.same rfl rfl rfl rfl rfl, hk⟩
  | eofRead o =>
    intro hk h
    refine ⟨⟨fun _ => h.client hk, fun hl => ?_, fun hp => ?_, h.client, h.iac⟩, hk⟩
    · have hl : o.kind = .logfile := hl
      rw [hk] at hl; simp at hl
    · have := (h.pending hp).1; rw [hk] at this; simp at this
  | push => exact fun hk h => ⟨h.same rfl rfl rfl rfl rfl, hk⟩
  | drain => exact fun hk h => ⟨h.same rfl rfl rfl rfl rfl, hk⟩

/-- A console or log after `shutdown`. -/
theorem shutdown_x {w : World} (h : WInv w) (env : Env) (up : Bool) (i : Nat) (hk : (w.obj i).kind ≠ .client)
    (hx : XInv (w.obj i)) : XInv ((w.shutdown env up i).obj i) := by
  unfold World.shutdown
  by_cases hf : (w.obj i).fd = false
  · rw [if_pos hf]; exact hx
  rw [if_neg hf]
  dsimp only
  have hsl : SL w (w.mod i (fun o =>
      { o with fd := false, pin := false, pout := false, pend := [], eof := false, gen := o.gen + 1, hist := o.hist ++ [none] })) := by
    refine ⟨fun j => ?_, rfl⟩
    rw [World.mod_obj]; split <;> exact ⟨rfl, rfl, rfl⟩
  have hg : ((w.mod i (fun o =>
      { o with fd := false, pin := false, pout := false, pend := [], eof := false, gen := o.gen + 1, hist := o.hist ++ [none] })).obj i).eof = false ∧
      iacOk ((w.mod i (fun o =>
      { o with fd := false, pin := false, pout := false, pend := [], eof := false, gen := o.gen + 1, hist := o.hist ++ [none] })).obj i).iac ∧
      (((w.mod i (fun o =>
      { o with fd := false, pin := false, pout := false, pend := [], eof := false, gen := o.gen + 1, hist := o.hist ++ [none] })).obj i).conn = .pending →
        (w.obj i).kind = .telnet) := by
    rw [World.mod_self]; exact ⟨rfl, hx.iac, fun hp => (hx.pending hp).1⟩
  have hkk : ((w.mod i (fun o =>
      { o with fd := false, pin := false, pout := false, pend := [], eof := false, gen := o.gen + 1, hist := o.hist ++ [none] })).obj i).kind = (w.obj i).kind := by
    rw [World.mod_self]
  generalize (w.mod i (fun o =>
      { o with fd := false, pin := false, pout := false, pend := [], eof := false, gen := o.gen + 1, hist := o.hist ++ [none] })) = w1 at hsl hg hkk ⊢
  have hl1 := h.l.same hsl
  have mk : ∀ o : Obj, o.kind = (w.obj i).kind → o.eof = false → iacOk o.iac → (o.conn = .pending → (w.obj i).kind = .telnet) →
      XInv o := by
    intro o h1 h2 h3 h4
    refine ⟨by simp [h2], fun _ => h2, fun hp => ⟨by rw [h1]; exact h4 hp, h2⟩, fun hc => ?_, h3⟩
    rw [h1] at hc; exact absurd hc hk
  have notif : ∀ (f : Obj → Obj) (n : Note), (∀ o : Obj, (f o).kind = o.kind ∧ (f o).readers = o.readers ∧ (f o).writers = o.writers) →
      XInv (f (w1.obj i)) → (w1.obj i).kind.isConsole = true →
      XInv (((w1.mod i f).notify env i n).obj i) := by
    intro f n hq hxf hc
    have hs2 : SL w1 (w1.mod i f) := by
      refine ⟨fun j => ?_, rfl⟩
      rw [World.mod_obj]; split
      · rename_i e; subst e; exact ⟨(hq _).1, (hq _).2.1, (hq _).2.2⟩
      · exact ⟨rfl, rfl, rfl⟩
    have p := (notify_step (hl1.same hs2) env i n (by rw [(hs2.1 i).1]; exact hc)).pstep.touched i
    exact XInv.passive p (by rw [World.mod_self]; exact hxf)
  cases hk1 : (w1.obj i).kind
  case client => rw [hkk] at hk1; exact absurd hk1 hk
  case logfile => exact mk _ hkk hg.1 hg.2.1 hg.2.2
  case serial =>
    dsimp only
    split
    · exact notif _ _ (fun o => ⟨rfl, rfl, rfl⟩) (mk _ hkk hg.1 hg.2.1 hg.2.2) (by rw [hk1]; rfl)
    · rw [World.mod_self]; exact mk _ hkk hg.1 hg.2.1 hg.2.2
  case test => dsimp only; rw [World.mod_self]; exact mk _ hkk hg.1 hg.2.1 hg.2.2
  all_goals exact notif _ _ (fun o => ⟨rfl, rfl, rfl⟩) (mk _ hkk hg.1 hg.2.1 (by simp)) (by rw [hk1]; rfl)

theorem read_x {w w' : World} (h : WInv w) (env : Env) (up : Bool) (i : Nat) (r : ReadRes) (hk : (w.obj i).kind ≠ .client)
    (hx : XInv (w.obj i)) (ht : w.read env up i r = some w') : XInv (w'.obj i) := by
  unfold World.read at ht
  split at ht
  · simp only [Option.some.injEq] at ht; subst ht; exact hx
  rename_i hfd
  have hfd : (w.obj i).fd = true := by simpa using hfd
  split at ht
  · simp only [Option.some.injEq] at ht; subst ht; exact hx
  rename_i htel
  have s1 : WStep w (w.mod i (fun o => { o with eof := true, pin := false })) := by
    refine .mod _ _ _ ⟨rfl, rfl, rfl, rfl, fun _ _ => rfl, fun ho => ⟨ho.cap, ho.susp, ?_⟩⟩
    intro hf; exact ⟨rfl, (ho.closed hf).2⟩
  split at ht
  · simp only [Option.some.injEq] at ht; subst ht; exact hx
  · simp only [Option.some.injEq] at ht; subst ht; exact shutdown_x h env up i hk hx
  · rename_i hr
    have hlog : (w.obj i).kind ≠ .logfile := by
      intro hl; rw [if_pos hl] at hr; simp at hr
    have hx1 : XInv ((w.mod i (fun o => { o with eof := true, pin := false })).obj i) := by
      rw [World.mod_self]
      refine ⟨fun _ => hfd, fun hl => absurd hl hlog, fun hp => ?_, hx.client, hx.iac⟩
      have hp : (w.obj i).conn = .pending := hp
      exact absurd ⟨(hx.pending hp).1, by rw [hp]; simp⟩ htel
    simp only [Option.some.injEq] at ht; subst ht
    split
    · exact shutdown_x (h.wstep s1) env up i (by rw [World.mod_self]; exact hk) hx1
    · exact hx1
  · rename_i d0 _
    dsimp only at ht
    split at ht
    · rename_i hc; exact absurd hc hk
    · simp only [Option.map_eq_some_iff] at ht
      obtain ⟨t, h1, rfl⟩ := ht
      have hm : i ∉ ((w.mod i (fun o => ({ o with iac := t.iac }).write t.sent false)).obj i).readers := by
        rw [World.mod_self]; simpa using h.l.not_self i
      rw [deliver_other env i _ hm, World.mod_self]
      apply XInv.write
      refine ⟨hx.eofFd, hx.log, hx.pending, hx.client, ?_⟩
      have e := telChunks_eq (w.obj i).iac [d0.take readBufSize]
      obtain ⟨a, b, c, e1, e2⟩ := telRef_ok (iac := (w.obj i).iac) [d0.take readBufSize].flatten hx.iac
      rw [e1] at e
      unfold telChunks at e
      rw [h1] at e
      simp only [telChunks, Option.some.injEq, Prod.mk.injEq] at e
      show iacOk t.iac
      rw [e.1]; exact e2
    · simp only [Option.some.injEq] at ht; subst ht
      rw [deliver_other env i _ (h.l.not_self i)]; exact hx

theorem push_obj (w : World) (i n : Nat) : (w.push i n).obj i = { w.obj i with pend := (w.obj i).pend.drop n } := by
  unfold World.push; rw [World.mod_self]

theorem flush_x {w : World} (h : WInv w) (env : Env) (up : Bool) (i : Nat) (r : WriteRes) (hk : (w.obj i).kind ≠ .client)
    (hx : XInv (w.obj i)) : XInv ((w.flush env up i r).obj i) := by
  unfold World.flush
  dsimp only
  split
  · exact hx
  split
  · exact hx
  have h1 : XInv (((w.push i (r.count (w.obj i).pend.length)).drained i).obj i) ∧
      (((w.push i (r.count (w.obj i).pend.length)).drained i).obj i).kind ≠ .client := by
    unfold World.drained
    split
    · rw [World.mod_self, push_obj]; exact ⟨hx.same rfl rfl rfl rfl rfl, hk⟩
    · rw [push_obj]; exact ⟨hx.same rfl rfl rfl rfl rfl, hk⟩
  split
  · exact shutdown_x ((h.wstep (push_ws _ _ _)).wstep (drained_ws _ _)) env up i h1.2 h1.1
  · exact h1.1

structure FInv (w : World) : Prop where
  e : EInv w
  x : ∀ j ∈ w.live, XInv (w.obj j)

theorem connUp_x {w : World} (h : WInv w) (env : Env) (i : Nat) (hx : XInv (w.obj i)) : XInv ((w.connUp env i).obj i) := by
  unfold World.connUp
  dsimp only
  split
  · exact hx
  split
  · exact hx
  rename_i hc _
  have hc : (w.obj i).kind.isConsole = true := by simpa using hc
  have x1 : XInv ((w.mod i (fun o => { o with fd := true, pin := true, conn := .up, eof := false })).obj i) := by
    rw [World.mod_self]
    exact ⟨by simp, fun _ => rfl, by simp, fun _ => rfl, hx.iac⟩
  have hsl : SL w (w.mod i (fun o => { o with fd := true, pin := true, conn := .up, eof := false })) := by
    refine ⟨fun j => ?_, rfl⟩
    rw [World.mod_obj]; split <;> exact ⟨rfl, rfl, rfl⟩
  have hk1 : ((w.mod i (fun o => { o with fd := true, pin := true, conn := .up, eof := false })).obj i).kind.isConsole = true := by
    rw [World.mod_self]; exact hc
  generalize (w.mod i (fun o => { o with fd := true, pin := true, conn := .up, eof := false })) = v at x1 hsl hk1 ⊢
  have x2 : XInv ((if (w.obj i).kind = .test then v else v.notify env i (.connected i)).obj i) := by
    split
    · exact x1
    · exact XInv.passive ((notify_step (h.l.same hsl) env i _ hk1).pstep.touched i) x1
  split
  · rw [World.mod_self]; exact x2.write _ _
  · exact x2

theorem FInv.step {env : Env} {w w' : World} (h : FInv w) (s : Step) (hs : w.step env s = some w') : FInv w' := by
  refine ⟨h.e.step s hs, fun j hj => ?_⟩
  obtain ⟨l1, l2, l3⟩ := step_live h.e.d s hs
  rcases l1 j hj with hl | ⟨k, q, rfl, hq, hn, rfl⟩
  · have x0 := h.x j hl
    by_cases ht : s.target = some j
    case neg => exact XInv.ext (step_ext h.e.d env s hs j ht) x0
    by_cases hk0 : (w.obj j).kind = .client
    · by_cases hp : ∃ up rd wr, s = .poll j up rd wr
      · obtain ⟨up, rd, wr, rfl⟩ := hp
        rcases poll_cown h.e.d env j up rd wr hk0 hs with g | g
        · exact absurd hj g
        · exact (XInv.own g hk0 x0).1
      · rcases step_client_target s hs hl hk0 ht (by intro up rd wr e; exact hp ⟨up, rd, wr, e⟩) with g | g
        · rw [g]; exact x0
        · rw [g]; exact x0.same rfl rfl rfl rfl rfl
    · cases s with
      | check => simp [Step.target] at ht
      | childExit => simp [Step.target] at ht
      | grant c k =>
        simp only [Step.target, Option.some.injEq] at ht; subst ht
        simp only [World.step, Option.some.injEq] at hs; subst hs
        split
        · rw [if_pos hl]; exact x0
        · exact x0
      | poll i up rd wr =>
        simp only [Step.target, Option.some.injEq] at ht; subst ht
        simp only [World.step] at hs
        split at hs
        · simp only [Option.some.injEq] at hs; subst hs; exact x0
        simp only [Option.map_eq_some_iff] at hs
        obtain ⟨w1, h1, h2⟩ := hs
        have n1 : XInv (w1.obj i) ∧ WInv w1 ∧ (w1.obj i).kind ≠ .client := by
          cases rd with
          | none => simp only [Option.some.injEq] at h1; subst h1; exact ⟨x0, h.e.d.inv, hk0⟩
          | some r =>
            have := read_inv h.e.d.inv env up i r h1
            exact ⟨read_x h.e.d.inv env up i r hk0 x0 h1, this.1, by rw [this.2.kind]; exact hk0⟩
        split at h2
        · subst h2; exact n1.1
        split at h2
        · subst h2; exact n1.1
        · subst h2; exact flush_x n1.2.1 env up i _ n1.2.2 n1.1
      | connUp i =>
        simp only [Step.target, Option.some.injEq] at ht; subst ht
        simp only [World.step, Option.some.injEq] at hs; subst hs
        rw [if_pos hl]; exact connUp_x h.e.d.inv env i x0
      | connPend i =>
        simp only [Step.target, Option.some.injEq] at ht; subst ht
        simp only [World.step, Option.some.injEq] at hs; subst hs
        split
        · rename_i hc
          rw [World.mod_self]
          have he : (w.obj i).eof = false := by
            cases hh : (w.obj i).eof with
            | false => rfl
            | true => have := x0.eofFd hh; rw [hc.2.2] at this; simp at this
          exact ⟨fun _ => rfl, x0.log, fun _ => ⟨hc.2.1, he⟩, fun _ => rfl, x0.iac⟩
        · exact x0
      | connDown i =>
        simp only [Step.target, Option.some.injEq] at ht; subst ht
        simp only [World.step, Option.some.injEq] at hs; subst hs
        split
        · rename_i hc
          rw [World.mod_self]
          refine ⟨fun he => ?_, x0.log, by simp, fun hcl => absurd hcl hk0, x0.iac⟩
          rw [(x0.pending hc.2).2] at he; simp at he
        · exact x0
      | connFail i =>
        simp only [Step.target, Option.some.injEq] at ht; subst ht
        simp only [World.step, Option.some.injEq] at hs; subst hs
        split
        · rename_i hc
          exact XInv.passive ((notify_step h.e.d.inv.l env i (.connFailed i) (by rw [hc.2.1]; rfl)).pstep.touched i) x0
        · exact x0
      | resetTimeout i =>
        simp only [Step.target, Option.some.injEq] at ht; subst ht
        simp only [World.step, Option.some.injEq] at hs; subst hs
        have m : XInv ((w.mod i (fun o => { o with resetPid := none, resetTimer := false })).obj i) := by
          rw [World.mod_self]; exact x0.same rfl rfl rfl rfl rfl
        split
        · split
          · exact m
          · split
            · exact m
            · exact m
        · exact x0
      | logOpen i ok =>
        simp only [Step.target, Option.some.injEq] at ht; subst ht
        simp only [World.step, Option.some.injEq] at hs; subst hs
        split
        · rename_i hlog
          rw [World.mod_self]
          have he := x0.log hlog
          split
          · have y0 : XInv { w.obj i with fd := true, pout := false, eof := false } :=
              ⟨by simp, fun _ => rfl, fun hp => ⟨(x0.pending hp).1, rfl⟩, fun _ => rfl, x0.iac⟩
            exact (y0.write _ _).same rfl rfl rfl rfl rfl
          · refine ⟨fun hh => ?_, x0.log, x0.pending, fun hcl => absurd hcl hk0, x0.iac⟩
            have hh : (w.obj i).eof = true := hh
            rw [he] at hh; simp at hh
        · exact x0
      | logStamp i =>
        simp only [Step.target, Option.some.injEq] at ht; subst ht
        simp only [World.step, Option.some.injEq] at hs; subst hs
        split
        · unfold World.note; rw [World.mod_self]; exact x0.write _ _
        · exact x0
  · have h0 := h.e.d.unwait (w.wait.eraseIdx k) (fun q hq => List.mem_of_mem_eraseIdx hq)
    have hok := h.e.d.wait q (List.mem_of_getElem? hq)
    refine XInv.passive (grant_own h0.inv env j q hn hok.2) ?_
    rw [newClient_obj, if_pos rfl]
    exact ⟨by simp, by simp, by simp, by simp, Or.inl rfl⟩

theorem Reachable.finv {env : Env} {w : World} (h : Reachable env w) : FInv w := by
  obtain ⟨cfg, ss, hc, hr⟩ := h
  refine world_run_inv (P := FInv) env (fun w s w' h hs => h.step s hs)
    (fun w n h => ⟨⟨h.e.d.tick n, h.e.cl⟩, h.x⟩) ss ?_ hr
  refine ⟨Reachable.einv (env := env) ⟨cfg, [], hc, rfl⟩, fun j hl => ?_⟩
  have hnc := boot_not_client cfg hc j hl
  have hd : ((World.boot cfg).obj j).eof = false ∧ ((World.boot cfg).obj j).conn = .down ∧ ((World.boot cfg).obj j).iac = none := by
    rw [boot_obj]
    split
    · exact ⟨rfl, rfl, rfl⟩
    · split
      · exact ⟨rfl, rfl, rfl⟩
      · split <;> exact ⟨rfl, rfl, rfl⟩
  refine ⟨by simp [hd.1], fun _ => hd.1, by simp [hd.2.1], fun h => absurd h hnc, ?_⟩
  rw [hd.2.2]; exact Or.inl rfl


/-! ### Bytes sent to one object -/

theorem sentTo_append (i : Nat) (a b : List Fx) : sentTo i (a ++ b) = sentTo i a ++ sentTo i b := by
  simp [sentTo]

theorem sentTo_none (i : Nat) (l : List Fx) (h : ∀ d, Fx.sent i d ∉ l) : sentTo i l = [] := by
  unfold sentTo
  rw [List.flatMap_eq_nil_iff]
  intro e he
  cases e with
  | sent j d =>
    dsimp only
    split
    · rename_i e; subst e; exact absurd he (h d)
    · rfl
  | _ => rfl

theorem NoSent.sentTo {w w' : World} (h : NoSent w w') (i : Nat) : Conman.sentTo i w'.fx = Conman.sentTo i w.fx := by
  obtain ⟨l, h1, h2⟩ := h
  rw [h1, sentTo_append, sentTo_none i l (h2 i), List.append_nil]

theorem push_sentTo (w : World) (i n : Nat) : sentTo i (w.push i n).fx = sentTo i w.fx ++ (w.obj i).pend.take n := by
  unfold World.push
  rw [World.mod_fx]
  split
  · rename_i h; subst h; simp
  · rw [sentTo_append]; simp [sentTo]

theorem drained_fx (w : World) (i : Nat) : (w.drained i).fx = w.fx := by
  unfold World.drained; split <;> rfl

/-- A flush in full. -/
theorem flush_self {w : World} (h : WInv w) (env : Env) (up : Bool) (i : Nat) (r : WriteRes)
    (hf : (w.obj i).fd = true) (hp : (w.obj i).conn ≠ .pending) :
    ∃ n, n ≤ (w.obj i).pend.length ∧ sentTo i (w.flush env up i r).fx = sentTo i w.fx ++ (w.obj i).pend.take n ∧
      (∀ m, r = .accept m → n = min m (w.obj i).pend.length) ∧
      (((w.flush env up i r).obj i).gen = (w.obj i).gen ∧ ((w.flush env up i r).obj i).pend = (w.obj i).pend.drop n ∧
        ((w.flush env up i r).obj i).eof = (w.obj i).eof ∧ (w.flush env up i r).live = w.live ∧
        ((w.obj i).eof = true → ((w.flush env up i r).obj i).pend ≠ []) ∨
       ((w.flush env up i r).obj i).gen = (w.obj i).gen + 1 ∧ (r = .err ∨ ((w.obj i).eof = true ∧ n = (w.obj i).pend.length)) ∧
        ((w.obj i).kind = .client → i ∉ (w.flush env up i r).live)) := by
  refine ⟨r.count (w.obj i).pend.length, ?_, ?_, ?_, ?_⟩
  · cases r <;> simp [WriteRes.count]; omega
  · unfold World.flush
    dsimp only
    rw [if_neg (by simp [hf]), if_neg (by simp [hp])]
    split
    · rw [(shutdown_sameFx _ _ _ _).1, drained_fx, push_sentTo]
    · rw [drained_fx, push_sentTo]
  · rintro m rfl; rfl
  · unfold World.flush
    dsimp only
    rw [if_neg (by simp [hf]), if_neg (by simp [hp])]
    obtain ⟨d1, d2, d3, d4⟩ := drained_obj (w.push i (r.count (w.obj i).pend.length)) i
    rw [push_obj] at d1 d2 d3 d4
    have hw := (h.wstep (push_ws w i (r.count (w.obj i).pend.length))).wstep (drained_ws _ i)
    have hlive : ((w.push i (r.count (w.obj i).pend.length)).drained i).live = w.live := by
      rw [(drained_ws _ i).live, (push_ws _ _ _).live]
    have dk : (((w.push i (r.count (w.obj i).pend.length)).drained i).obj i).kind = (w.obj i).kind := by
      rw [(drained_ws _ i).kp.kind, (push_ws _ _ _).kp.kind]
    generalize ((w.push i (r.count (w.obj i).pend.length)).drained i) = v at d1 d2 d3 d4 dk hw hlive
    dsimp only at d1 d2 d3 d4
    by_cases hc : (r = .err ∧ (w.obj i).pend ≠ []) ∨ ((v.obj i).pend = [] ∧ (w.obj i).eof = true)
    · rw [if_pos hc]
      right
      refine ⟨?_, ?_, fun hk => shutdown_client env up i (by rw [d4]; exact hf) (by rw [dk]; exact hk)⟩
      · rcases shutdown_gen hw env up i (by rw [d4]; exact hf) with g | g
        · rw [g.1, d3]
        · rw [g.2.2, d3]
      · rcases hc with hc | hc
        · exact Or.inl hc.1
        · right
          refine ⟨hc.2, ?_⟩
          rw [d1, List.drop_eq_nil_iff] at hc
          have : r.count (w.obj i).pend.length ≤ (w.obj i).pend.length := by
            cases r <;> simp [WriteRes.count]; omega
          omega
    · rw [if_neg hc]
      left
      refine ⟨d3, d1, d2, hlive, fun he hn => hc (Or.inr ⟨hn, he⟩)⟩

theorem flush_sentTo (w : World) (env : Env) (up : Bool) (i : Nat) (r : WriteRes) :
    ∃ n, sentTo i (w.flush env up i r).fx = sentTo i w.fx ++ (w.obj i).pend.take n := by
  unfold World.flush
  dsimp only
  split
  · exact ⟨0, by simp⟩
  split
  · exact ⟨0, by simp⟩
  refine ⟨r.count (w.obj i).pend.length, ?_⟩
  split
  · rw [(shutdown_sameFx _ _ _ _).1, drained_fx, push_sentTo]
  · rw [drained_fx, push_sentTo]

/-- Flushing an object just reopened. -/
theorem flush_idle (w : World) (env : Env) (up : Bool) (i : Nat) (r : WriteRes) (hp : (w.obj i).pend = []) (he : (w.obj i).eof = false) :
    ((w.flush env up i r).obj i).gen = (w.obj i).gen := by
  unfold World.flush
  dsimp only
  split
  · rfl
  split
  · rfl
  rw [if_neg (by simp [hp, he]), (drained_obj _ i).2.2.1, push_obj]

/-- Closing by a read. -/
theorem read_close {w w' : World} (h : WInv w) (env : Env) (up : Bool) (i : Nat) (r : ReadRes)
    (hf : (w.obj i).fd = true) (hc : (w.obj i).kind = .telnet → (w.obj i).conn = .up) (hlog : (w.obj i).kind ≠ .logfile)
    (ht : w.read env up i r = some w') (hr : r = .err ∨ (r = .eof ∧ (w.obj i).pend = [])) :
    (w'.obj i).gen = (w.obj i).gen + 1 ∧ ((w'.obj i).pend = [] ∧ (w'.obj i).eof = false ∨ i ∉ w'.live) := by
  have s1 : WStep w (w.mod i (fun o => { o with eof := true, pin := false })) := by
    refine .mod _ _ _ ⟨rfl, rfl, rfl, rfl, fun _ _ => rfl, fun ho => ⟨ho.cap, ho.susp, ?_⟩⟩
    intro hf; exact ⟨rfl, (ho.closed hf).2⟩
  have sh : ∀ v : World, WInv v → (v.obj i).fd = true → (v.obj i).gen = (w.obj i).gen →
      ((v.shutdown env up i).obj i).gen = (w.obj i).gen + 1 ∧
      (((v.shutdown env up i).obj i).pend = [] ∧ ((v.shutdown env up i).obj i).eof = false ∨ i ∉ (v.shutdown env up i).live) := by
    intro v hv hvf hg
    rcases shutdown_gen hv env up i hvf with g | g
    · exact ⟨by rw [g.1, hg], Or.inl g.2⟩
    · exact ⟨by rw [g.2.2, hg], Or.inr g.2.1⟩
  unfold World.read at ht
  rw [if_neg (by simp [hf]), if_neg (by rintro ⟨a, b⟩; exact b (hc a)), if_neg hlog] at ht
  rcases hr with rfl | ⟨rfl, hp⟩
  · simp only [Option.some.injEq] at ht; subst ht; exact sh w h hf rfl
  · simp only [Option.some.injEq] at ht
    rw [if_pos (by rw [World.mod_self]; exact hp)] at ht
    subst ht
    exact sh _ (h.wstep s1) (by rw [World.mod_self]; exact hf) (by rw [World.mod_self])

/-- What any step does to an object at end-of-file. -/
theorem eof_step {env : Env} {w w' : World} (h : FInv w) (s : Step) (hs : w.step env s = some w') (i : Nat)
    (hl : i ∈ w.live) (he : (w.obj i).eof = true) :
    ((w'.obj i).gen = (w.obj i).gen ∧ (w'.obj i).eof = true ∧ i ∈ w'.live ∧
      ∃ n, (w'.obj i).pend = (w.obj i).pend.drop n ∧ sentTo i w'.fx = sentTo i w.fx ++ (w.obj i).pend.take n ∧
        (n ≠ 0 → ∃ up rd wr, s = .poll i up rd (some wr)) ∧ ((w.obj i).pend ≠ [] → (w'.obj i).pend ≠ [])) ∨
    ((w'.obj i).gen = (w.obj i).gen + 1 ∧ ∃ up rd wr, s = .poll i up rd wr ∧
      (rd = some .err ∨ wr = some .err ∨ sentTo i w'.fx = sentTo i w.fx ++ (w.obj i).pend)) := by
  have x0 := h.x i hl
  obtain ⟨l1, l2, l3⟩ := step_live h.e.d s hs
  -- nothing happens
  have idle : ∀ (_ : (w'.obj i).gen = (w.obj i).gen) (_ : (w'.obj i).eof = true) (_ : i ∈ w'.live) (_ : (w'.obj i).pend = (w.obj i).pend)
      (_ : sentTo i w'.fx = sentTo i w.fx),
      ((w'.obj i).gen = (w.obj i).gen ∧ (w'.obj i).eof = true ∧ i ∈ w'.live ∧
      ∃ n, (w'.obj i).pend = (w.obj i).pend.drop n ∧ sentTo i w'.fx = sentTo i w.fx ++ (w.obj i).pend.take n ∧
        (n ≠ 0 → ∃ up rd wr, s = .poll i up rd (some wr)) ∧ ((w.obj i).pend ≠ [] → (w'.obj i).pend ≠ [])) :=
    fun a b c d e => ⟨a, b, c, 0, by simp [d], by simp [e], by simp, by simp [d]⟩
  have quietFx : (∀ up rd wr, s ≠ .poll i up rd (some wr)) → sentTo i w'.fx = sentTo i w.fx := by
    intro hn
    obtain ⟨l, e1, e2⟩ := step_sent env s hs
    rw [e1, sentTo_append, sentTo_none i l, List.append_nil]
    intro d hd
    obtain ⟨_, up, rd, wr, e⟩ := e2 i d hd
    exact hn up rd wr e
  by_cases ht : s.target = some i
  case neg =>
    left
    have ex := step_ext h.e.d env s hs i ht
    have ae := ex.atEof he
    refine idle ex.gen ae.eof ?_ ae.pend (quietFx ?_)
    · rcases l2 i hl with g | g
      · exact g
      · exact absurd g.1 ht
    · rintro up rd wr rfl; exact ht rfl
  by_cases hp : ∃ up rd wr, s = .poll i up rd wr
  case neg =>
    left
    have hq : sentTo i w'.fx = sentTo i w.fx := quietFx (fun up rd wr e => hp ⟨up, rd, some wr, e⟩)
    have same : w' = w → _ := fun e => idle (by rw [e]) (by rw [e]; exact he) (by rw [e]; exact hl) (by rw [e]) hq
    cases s with
    | check => simp [Step.target] at ht
    | childExit => simp [Step.target] at ht
    | poll j up rd wr =>
      simp only [Step.target, Option.some.injEq] at ht; subst ht
      exact absurd ⟨_, _, _, rfl⟩ hp
    | grant c k =>
      simp only [Step.target, Option.some.injEq] at ht; subst ht
      simp only [World.step, Option.some.injEq] at hs
      apply same
      rw [← hs]
      split
      · rw [if_pos hl]
      · rfl
    | connUp j =>
      simp only [Step.target, Option.some.injEq] at ht; subst ht
      simp only [World.step, Option.some.injEq] at hs
      apply same
      rw [← hs, if_pos hl]
      unfold World.connUp
      dsimp only
      split
      · rfl
      · have hnp : ¬ (w.obj j).conn = .pending := by
          intro hpd; rw [(x0.pending hpd).2] at he; simp at he
        rw [if_pos ⟨x0.eofFd he, hnp⟩]
    | connPend j =>
      simp only [Step.target, Option.some.injEq] at ht; subst ht
      simp only [World.step, Option.some.injEq] at hs
      apply same
      rw [← hs, if_neg (by rw [x0.eofFd he]; simp)]
    | connDown j =>
      simp only [Step.target, Option.some.injEq] at ht; subst ht
      simp only [World.step, Option.some.injEq] at hs
      apply same
      rw [← hs, if_neg]
      rintro ⟨_, hpd⟩; rw [(x0.pending hpd).2] at he; simp at he
    | connFail j =>
      simp only [Step.target, Option.some.injEq] at ht; subst ht
      simp only [World.step, Option.some.injEq] at hs
      apply same
      rw [← hs, if_neg (by rw [x0.eofFd he]; simp)]
    | resetTimeout j =>
      simp only [Step.target, Option.some.injEq] at ht; subst ht
      simp only [World.step, Option.some.injEq] at hs
      have key : ((w'.obj j).gen = (w.obj j).gen ∧ (w'.obj j).eof = (w.obj j).eof ∧ (w'.obj j).pend = (w.obj j).pend) ∧ w'.live = w.live := by
        rw [← hs]
        split
        · have m : (((w.mod j (fun o => { o with resetPid := none, resetTimer := false })).obj j).gen = (w.obj j).gen ∧
              ((w.mod j (fun o => { o with resetPid := none, resetTimer := false })).obj j).eof = (w.obj j).eof ∧
              ((w.mod j (fun o => { o with resetPid := none, resetTimer := false })).obj j).pend = (w.obj j).pend) := by
            rw [World.mod_self]; exact ⟨rfl, rfl, rfl⟩
          split
          · exact ⟨m, rfl⟩
          · split
            · exact ⟨m, rfl⟩
            · exact ⟨m, rfl⟩
        · exact ⟨⟨rfl, rfl, rfl⟩, rfl⟩
      exact idle key.1.1 (by rw [key.1.2.1]; exact he) (by rw [key.2]; exact hl) key.1.2.2 hq
    | logOpen j ok =>
      simp only [Step.target, Option.some.injEq] at ht; subst ht
      simp only [World.step, Option.some.injEq] at hs
      apply same
      rw [← hs, if_neg]
      intro hk; rw [x0.log hk] at he; simp at he
    | logStamp j =>
      simp only [Step.target, Option.some.injEq] at ht; subst ht
      simp only [World.step, Option.some.injEq] at hs
      apply same
      rw [← hs, if_neg]
      intro hk; rw [x0.log hk] at he; simp at he
  obtain ⟨up, rd, wr, rfl⟩ := hp
  have hlog : (w.obj i).kind ≠ .logfile := by
    intro hk; rw [x0.log hk] at he; simp at he
  have hnp : (w.obj i).conn ≠ .pending := by
    intro hpd; rw [(x0.pending hpd).2] at he; simp at he
  simp only [World.step] at hs
  split at hs
  · simp only [Option.some.injEq] at hs; subst hs
    exact Or.inl (idle rfl he hl rfl rfl)
  simp only [Option.map_eq_some_iff] at hs
  obtain ⟨w1, h1, h2⟩ := hs
  have n1 : NoSent w w1 := by
    cases rd with
    | none => simp only [Option.some.injEq] at h1; subst h1; exact .refl _
    | some r => exact read_ns env up i r h1
  have i1 : WInv w1 ∧ (w1.live = w.live ∨ (w.obj i).kind = .client ∧ w1.live = w.live.filter (fun j => j ≠ i)) := by
    cases rd with
    | none => simp only [Option.some.injEq] at h1; subst h1; exact ⟨h.e.d.inv, Or.inl rfl⟩
    | some r => have := read_inv h.e.d.inv env up i r h1; exact ⟨this.1, this.2.live⟩
  -- the read closes the object or leaves it alone
  have key : ((w1.obj i).gen = (w.obj i).gen ∧ (w1.obj i).pend = (w.obj i).pend ∧ (w1.obj i).eof = true) ∨
      ((rd = some .err ∨ (w.obj i).pend = []) ∧ (w1.obj i).gen = (w.obj i).gen + 1 ∧
        ((w1.obj i).pend = [] ∧ (w1.obj i).eof = false ∨ i ∉ w1.live)) := by
    cases rd with
    | none => simp only [Option.some.injEq] at h1; subst h1; exact Or.inl ⟨rfl, rfl, he⟩
    | some r =>
      simp only at h1
      by_cases hup : (w.obj i).kind = .telnet → (w.obj i).conn = .up
      case neg =>
        left
        unfold World.read at h1
        split at h1
        · simp only [Option.some.injEq] at h1; subst h1; exact ⟨rfl, rfl, he⟩
        · rw [if_pos (by simpa using hup)] at h1
          simp only [Option.some.injEq] at h1; subst h1; exact ⟨rfl, rfl, he⟩
      by_cases hr : r = .err ∨ (r = .eof ∧ (w.obj i).pend = [])
      · right
        refine ⟨hr.imp (by rintro rfl; rfl) (fun g => g.2), read_close h.e.d.inv env up i r (x0.eofFd he) hup hlog h1 hr⟩
      · left
        rcases read_self h.e.d.inv env up i r h1 with g | g | g | g
        · exact ⟨g.1, (g.2 he).1, (g.2 he).2⟩
        · exact absurd (Or.inl g) hr
        · exact absurd g hlog
        · exact absurd (Or.inr g) hr
  have fin1 : ∀ (_ : rd = some .err ∨ (w.obj i).pend = []) (_ : (w'.obj i).gen = (w.obj i).gen + 1)
      (_ : (w.obj i).pend = [] → sentTo i w'.fx = sentTo i w.fx),
      ((w'.obj i).gen = (w.obj i).gen + 1 ∧ ∃ up' rd' wr', Step.poll i up rd wr = .poll i up' rd' wr' ∧
      (rd' = some .err ∨ wr' = some .err ∨ sentTo i w'.fx = sentTo i w.fx ++ (w.obj i).pend)) := by
    intro a b c
    refine ⟨b, up, rd, wr, rfl, ?_⟩
    rcases a with a | a
    · exact Or.inl a
    · exact Or.inr (Or.inr (by rw [c a, a, List.append_nil]))
  have hlive1 : i ∈ w1.live → i ∈ w1.live := id
  rcases key with ⟨k1, k2, k3⟩ | ⟨k1, k2, k3⟩
  · have hl1 : i ∈ w1.live ∨ i ∉ w1.live := by by_cases g : i ∈ w1.live <;> simp [g]
    by_cases hli : i ∈ w1.live
    case neg =>
      -- a client that is gone was closed
      exfalso
      rcases i1.2 with g | ⟨g1, g2⟩
      · rw [g] at hli; exact hli hl
      · cases rd with
        | none => simp only [Option.some.injEq] at h1; subst h1; exact hli hl
        | some r =>
          have := read_cown h.e.d.inv env up i r g1 h1
          simp only at h1
          unfold World.read at h1
          rw [if_neg (by simp [x0.eofFd he]), if_neg (by simp [g1]), if_neg hlog] at h1
          cases r with
          | again => simp only [Option.some.injEq] at h1; subst h1; exact hli hl
          | err =>
            simp only [Option.some.injEq] at h1; subst h1
            rcases shutdown_gen h.e.d.inv env up i (x0.eofFd he) with q | q
            · rw [q.1] at k1; omega
            · rw [q.2.2] at k1; omega
          | eof =>
            simp only [Option.some.injEq] at h1
            split at h1
            · subst h1
              have s1 : WStep w (w.mod i (fun o => { o with eof := true, pin := false })) := by
                refine .mod _ _ _ ⟨rfl, rfl, rfl, rfl, fun _ _ => rfl, fun ho => ⟨ho.cap, ho.susp, ?_⟩⟩
                intro hf; exact ⟨rfl, (ho.closed hf).2⟩
              rcases shutdown_gen (h.e.d.inv.wstep s1) env up i (by rw [World.mod_self]; exact x0.eofFd he) with q | q
              · rw [q.1, World.mod_self] at k1; dsimp only at k1; omega
              · rw [q.2.2, World.mod_self] at k1; dsimp only at k1; omega
            · subst h1; exact hli hl
          | data d0 =>
            simp only [g1, Option.map_eq_some_iff] at h1
            obtain ⟨v, hv, rfl⟩ := h1
            have hkp := (acts_inv env i none (by simp) _ h.e.d.inv g1 hv).2
            apply hli
            rw [(deliver_lstep _ _ _ _).live, World.mod_live, hkp.live]; exact hl
    rw [if_neg (by simp [hli])] at h2
    split at h2
    · subst h2
      exact Or.inl (idle k1 k3 hli k2 (n1.sentTo i))
    · rename_i r hw
      have hwr : wr = some r := by
        split at hw
        · exact hw
        · simp at hw
      -- still open, so the flush goes ahead
      have hfd1 : (w1.obj i).fd = true ∧ (w1.obj i).conn ≠ .pending := by
        have hx1 : XInv (w1.obj i) := by
          cases rd with
          | none => simp only [Option.some.injEq] at h1; subst h1; exact x0
          | some r' =>
            by_cases hk : (w.obj i).kind = .client
            · rcases read_cown h.e.d.inv env up i r' hk h1 with g | g
              · exact absurd hli g
              · exact (XInv.own g hk x0).1
            · exact read_x h.e.d.inv env up i r' hk x0 h1
        exact ⟨hx1.eofFd k3, fun hpd => by rw [(hx1.pending hpd).2] at k3; simp at k3⟩
      obtain ⟨n, f1, f2, f3, f4⟩ := flush_self i1.1 env up i r hfd1.1 hfd1.2
      subst h2
      rw [k2] at f1 f2 f4
      rw [n1.sentTo i] at f2
      rcases f4 with ⟨g1, g2, g3, g4, g5⟩ | ⟨g1, g2, -⟩
      · left
        refine ⟨by rw [g1, k1], by rw [g3, k3], by rw [g4]; exact hli, n, g2, f2, fun _ => ⟨up, rd, r, by rw [hwr]⟩, fun _ => g5 k3⟩
      · right
        refine ⟨by rw [g1, k1], up, rd, wr, rfl, ?_⟩
        rcases g2 with g2 | ⟨_, g2⟩
        · exact Or.inr (Or.inl (by rw [hwr, g2]))
        · refine Or.inr (Or.inr ?_)
          rw [f2, g2, List.take_length]
  · right
    by_cases hli : i ∈ w1.live
    case neg =>
      rw [if_pos hli] at h2; subst h2
      exact fin1 k1 k2 (fun _ => n1.sentTo i)
    rw [if_neg (by simp [hli])] at h2
    split at h2
    · subst h2; exact fin1 k1 k2 (fun _ => n1.sentTo i)
    · rename_i r hw
      subst h2
      rcases k3 with k3 | k3
      · refine fin1 k1 (by rw [flush_idle w1 env up i r k3.1 k3.2, k2]) (fun _ => ?_)
        obtain ⟨n, e⟩ := flush_sentTo w1 env up i r
        rw [e, k3.1, List.take_nil, List.append_nil, n1.sentTo i]
      · exact absurd hli k3

end Conman
