import Verif.Lemma.WorldEof

/-
Delivery of data to readers; quiet clients; the shutdown counter.
-/
namespace Conman
open Spec

/-! ### The shutdown counter -/

theorem shutdown_mono {w : World} (h : WInv w) (env : Env) (up : Bool) (i : Nat) :
    (w.obj i).gen ≤ ((w.shutdown env up i).obj i).gen := by
  by_cases hf : (w.obj i).fd = true
  · rcases shutdown_gen h env up i hf with g | g
    · omega
    · omega
  · unfold World.shutdown; rw [if_pos (by simpa using hf)]; exact Nat.le_refl _

theorem read_mono {w w' : World} (h : WInv w) (env : Env) (up : Bool) (i : Nat) (r : ReadRes)
    (ht : w.read env up i r = some w') : (w.obj i).gen ≤ (w'.obj i).gen := by
  have s1 : WStep w (w.mod i (fun o => { o with eof := true, pin := false })) := by
    refine .mod _ _ _ ⟨rfl, rfl, rfl, rfl, fun _ _ => rfl, fun ho => ⟨ho.cap, ho.susp, ?_⟩⟩
    intro hf; exact ⟨rfl, (ho.closed hf).2⟩
  rcases read_self h env up i r ht with g | g
  · exact Nat.le_of_eq g.1.symm
  unfold World.read at ht
  split at ht
  · simp only [Option.some.injEq] at ht; subst ht; exact Nat.le_refl _
  split at ht
  · simp only [Option.some.injEq] at ht; subst ht; exact Nat.le_refl _
  have sh := shutdown_mono h env up i
  by_cases hlog : (w.obj i).kind = .logfile
  · rw [if_pos hlog] at ht
    simp only [Option.some.injEq] at ht; subst ht; exact sh
  rw [if_neg hlog] at ht
  rcases g with rfl | g | ⟨rfl, hp⟩
  · simp only [Option.some.injEq] at ht; subst ht; exact sh
  · exact absurd g hlog
  · simp only [Option.some.injEq] at ht
    rw [if_pos (by rw [World.mod_self]; exact hp)] at ht
    subst ht
    have := shutdown_mono (h.wstep s1) env up i
    rw [World.mod_self] at this
    exact this

theorem flush_mono {w : World} (h : WInv w) (env : Env) (up : Bool) (i : Nat) (r : WriteRes) :
    (w.obj i).gen ≤ ((w.flush env up i r).obj i).gen := by
  unfold World.flush
  dsimp only
  split
  · exact Nat.le_refl _
  split
  · exact Nat.le_refl _
  have e : (((w.push i (r.count (w.obj i).pend.length)).drained i).obj i).gen = (w.obj i).gen := by
    rw [(drained_obj _ i).2.2.1, push_obj]
  split
  · rw [← e]
    exact shutdown_mono ((h.wstep (push_ws _ _ _)).wstep (drained_ws _ _)) env up i
  · exact Nat.le_of_eq e.symm

theorem step_mono {env : Env} {w w' : World} (h : FInv w) (s : Step) (hs : w.step env s = some w') (i : Nat) :
    (w.obj i).gen ≤ (w'.obj i).gen := by
  by_cases ht : s.target = some i
  case neg => exact Nat.le_of_eq (step_ext h.e.d env s hs i ht).gen.symm
  cases s with
  | check => simp [Step.target] at ht
  | childExit => simp [Step.target] at ht
  | grant c k =>
    simp only [Step.target, Option.some.injEq] at ht; subst ht
    simp only [World.step, Option.some.injEq] at hs; subst hs
    split
    · rename_i q hq
      split
      · exact Nat.le_refl _
      · rename_i hn
        have h0 := h.e.d.unwait (w.wait.eraseIdx k) (fun q hq => List.mem_of_mem_eraseIdx hq)
        have hok := h.e.d.wait q (List.mem_of_getElem? hq)
        rw [(grant_own h0.inv env c q hn hok.2).same.gen, newClient_obj, if_pos rfl]
        exact Nat.le_refl _
    · exact Nat.le_refl _
  | poll j up rd wr =>
    simp only [Step.target, Option.some.injEq] at ht; subst ht
    simp only [World.step] at hs
    split at hs
    · simp only [Option.some.injEq] at hs; subst hs; exact Nat.le_refl _
    simp only [Option.map_eq_some_iff] at hs
    obtain ⟨w1, h1, h2⟩ := hs
    have n1 : (w.obj j).gen ≤ (w1.obj j).gen ∧ WInv w1 := by
      cases rd with
      | none => simp only [Option.some.injEq] at h1; subst h1; exact ⟨Nat.le_refl _, h.e.d.inv⟩
      | some r => exact ⟨read_mono h.e.d.inv env up j r h1, (read_inv h.e.d.inv env up j r h1).1⟩
    split at h2
    · subst h2; exact n1.1
    split at h2
    · subst h2; exact n1.1
    · subst h2; exact Nat.le_trans n1.1 (flush_mono n1.2 env up j _)
  | connUp j =>
    simp only [Step.target, Option.some.injEq] at ht; subst ht
    simp only [World.step, Option.some.injEq] at hs; subst hs
    split
    · unfold World.connUp
      dsimp only
      split
      · exact Nat.le_refl _
      split
      · exact Nat.le_refl _
      rename_i hc _
      have hc : (w.obj j).kind.isConsole = true := by simpa using hc
      have hsl : SL w (w.mod j (fun o => { o with fd := true, pin := true, conn := .up, eof := false })) := by
        refine ⟨fun j => ?_, rfl⟩
        rw [World.mod_obj]; split <;> exact ⟨rfl, rfl, rfl⟩
      have hg : ((w.mod j (fun o => { o with fd := true, pin := true, conn := .up, eof := false })).obj j).gen = (w.obj j).gen := by
        rw [World.mod_self]
      have hk1 : ((w.mod j (fun o => { o with fd := true, pin := true, conn := .up, eof := false })).obj j).kind.isConsole = true := by
        rw [World.mod_self]; exact hc
      generalize (w.mod j (fun o => { o with fd := true, pin := true, conn := .up, eof := false })) = v at hg hsl hk1 ⊢
      have x2 : ((if (w.obj j).kind = .test then v else v.notify env j (.connected j)).obj j).gen = (w.obj j).gen := by
        split
        · exact hg
        · rw [((notify_step (h.e.d.inv.l.same hsl) env j _ hk1).pstep.touched j).same.gen, hg]
      split
      · rw [World.mod_self, Obj.write_gen, x2]; exact Nat.le_refl _
      · rw [x2]; exact Nat.le_refl _
    · exact Nat.le_refl _
  | connPend j =>
    simp only [Step.target, Option.some.injEq] at ht; subst ht
    simp only [World.step, Option.some.injEq] at hs; subst hs
    split
    · rw [World.mod_self]; exact Nat.le_refl _
    · exact Nat.le_refl _
  | connDown j =>
    simp only [Step.target, Option.some.injEq] at ht; subst ht
    simp only [World.step, Option.some.injEq] at hs; subst hs
    split
    · rw [World.mod_self]; exact Nat.le_refl _
    · exact Nat.le_refl _
  | connFail j =>
    simp only [Step.target, Option.some.injEq] at ht; subst ht
    simp only [World.step, Option.some.injEq] at hs; subst hs
    split
    · rename_i hc
      rw [((notify_step h.e.d.inv.l env j (.connFailed j) (by rw [hc.2.1]; rfl)).pstep.touched j).same.gen]
      exact Nat.le_refl _
    · exact Nat.le_refl _
  | resetTimeout j =>
    simp only [Step.target, Option.some.injEq] at ht; subst ht
    simp only [World.step, Option.some.injEq] at hs; subst hs
    have m : ((w.mod j (fun o => { o with resetPid := none, resetTimer := false })).obj j).gen = (w.obj j).gen := by
      rw [World.mod_self]
    split
    · split
      · exact Nat.le_of_eq m.symm
      · split
        · exact Nat.le_of_eq m.symm
        · exact Nat.le_of_eq m.symm
    · exact Nat.le_refl _
  | logOpen j ok =>
    simp only [Step.target, Option.some.injEq] at ht; subst ht
    simp only [World.step, Option.some.injEq] at hs; subst hs
    split
    · rw [World.mod_self]
      split
      · show _ ≤ (Obj.write _ _ _).gen
        rw [Obj.write_gen]; exact Nat.le_refl _
      · exact Nat.le_refl _
    · exact Nat.le_refl _
  | logStamp j =>
    simp only [Step.target, Option.some.injEq] at ht; subst ht
    simp only [World.step, Option.some.injEq] at hs; subst hs
    split
    · unfold World.note; rw [World.mod_self, Obj.write_gen]; exact Nat.le_refl _
    · exact Nat.le_refl _

theorem FInv.tick {w : World} (h : FInv w) (n : Nat) : FInv ({ w with tick := n } : World) :=
  ⟨⟨h.e.d.tick n, h.e.cl⟩, h.x⟩

theorem run_mono {env : Env} (i : Nat) (ss : List Step) : ∀ {w w' : World}, FInv w → w.run env ss = some w' →
    (w.obj i).gen ≤ (w'.obj i).gen := by
  induction ss with
  | nil => intro w w' _ hr; simp only [World.run, Option.some.injEq] at hr; subst hr; exact Nat.le_refl _
  | cons s ss ih =>
    intro w w' h hr
    simp only [World.run, Option.bind_eq_some_iff] at hr
    obtain ⟨w1, h1, h2⟩ := hr
    have m := ih (w := { w1 with tick := w1.tick + 1 }) ((h.step s h1).tick (w1.tick + 1)) h2
    exact Nat.le_trans (step_mono h s h1 i) m

/-- Draining over a history. -/
theorem eof_run {env : Env} (i : Nat) (ss : List Step) : ∀ {w w' : World}, FInv w → i ∈ w.live → (w.obj i).eof = true →
    w.run env ss = some w' → (w'.obj i).gen = (w.obj i).gen →
    (w'.obj i).eof = true ∧ i ∈ w'.live ∧
      ∃ n, (w'.obj i).pend = (w.obj i).pend.drop n ∧ sentTo i w'.fx = sentTo i w.fx ++ (w.obj i).pend.take n := by
  induction ss with
  | nil =>
    intro w w' _ hl he hr _
    simp only [World.run, Option.some.injEq] at hr; subst hr
    exact ⟨he, hl, 0, by simp, by simp⟩
  | cons s ss ih =>
    intro w w' h hl he hr hg
    simp only [World.run, Option.bind_eq_some_iff] at hr
    obtain ⟨w1, h1, h2⟩ := hr
    have h3 := (h.step s h1).tick (w1.tick + 1)
    have m2 := run_mono i ss h3 h2
    rcases eof_step h s h1 i hl he with ⟨g1, g2, g3, n, g4, g5, -, -⟩ | ⟨g1, -⟩
    · obtain ⟨e1, e2, m, e3, e4⟩ := ih h3 g3 g2 h2 (by rw [hg]; exact g1.symm)
      refine ⟨e1, e2, n + m, ?_, ?_⟩
      · rw [e3]; dsimp only; rw [g4, List.drop_drop]
      · rw [e4]; dsimp only; rw [g5, g4, List.take_add, List.append_assoc]
    · exfalso
      have m2 : (w1.obj i).gen ≤ (w'.obj i).gen := m2
      omega

/-! ### Delivery -/

theorem unesc_data (e : Bool) (d : List UInt8) : (processClientEscapes e d).data = wireData e d ∧
    (processClientEscapes e d).acts = wireCommands e d ∧ (processClientEscapes e d).gotEscape = (unescRef e d).1 := by
  have h := processClientEscapes_eq e d
  obtain ⟨h1, h2⟩ := unescRef_wire d e
  rw [← h1, ← h2, ← h]
  exact ⟨rfl, rfl, rfl⟩

theorem readBufSize_eq : readBufSize = 8191 := by
  unfold readBufSize; rw [objBufSize_eq]

theorem tel_ok {iac : Option UInt8} (h : iacOk iac) (d : List UInt8) : ∃ t, processTelnetEscapes iac d = some t ∧
    telChunks iac [d] = some (t.iac, t.buf.take t.len, t.sent) := by
  have e := telChunks_eq iac [d]
  obtain ⟨a, b, c, e1, -⟩ := telRef_ok (iac := iac) [d].flatten h
  rw [e1] at e
  cases hp : processTelnetEscapes iac d with
  | none => unfold telChunks at e; rw [hp] at e; simp at e
  | some t =>
    refine ⟨t, rfl, ?_⟩
    unfold telChunks; rw [hp]; simp [telChunks]

/-- Bytes of telnet input a reply can still use up. -/
def telPot : Option UInt8 → Nat
  | none => 0
  | some x => if x = Tel.DONT ∨ x = Tel.DO ∨ x = Tel.WONT ∨ x = Tel.WILL then 2 else 1

theorem processTelnetCmd_len (c : UInt8) (o : Option UInt8) : (processTelnetCmd c o).length ≤ 3 ∧
    (¬ (c = Tel.DO ∨ c = Tel.WILL) → processTelnetCmd c o = []) := by
  have hs : ∀ a b, (sendTelnetCmd a b).length ≤ 3 := by
    intro a b; unfold sendTelnetCmd; split
    · split <;> simp
    · simp
  unfold processTelnetCmd
  split
  · simp
  split
  · simp
  split
  · rename_i h; refine ⟨?_, fun hn => absurd (Or.inl h) hn⟩
    split
    · exact hs _ _
    · simp
  split
  · simp
  split
  · rename_i h; refine ⟨?_, fun hn => absurd (Or.inr h) hn⟩
    split
    · exact hs _ _
    · simp
  · simp

theorem telByte_len {iac c i d s} (h : telByte iac c = some (i, d, s)) : s.length + telPot i ≤ telPot iac + 1 := by
  unfold telByte at h
  split at h
  · split at h
    · rename_i hc
      simp only [Option.some.injEq, Prod.mk.injEq] at h
      obtain ⟨rfl, rfl, rfl⟩ := h
      subst hc; decide
    · simp only [Option.some.injEq, Prod.mk.injEq] at h
      obtain ⟨rfl, rfl, rfl⟩ := h
      simp [telPot]
  · rename_i x
    split at h
    · rename_i hx
      subst hx
      have hI : telPot (some Tel.IAC) = 1 := by decide
      rw [hI]
      split at h
      · simp only [Option.some.injEq, Prod.mk.injEq] at h
        obtain ⟨rfl, rfl, rfl⟩ := h
        simp [telPot]
      split at h
      · simp only [Option.some.injEq, Prod.mk.injEq] at h
        obtain ⟨rfl, rfl, rfl⟩ := h
        simp only [telPot]; split <;> simp
      split at h
      · simp only [Option.some.injEq, Prod.mk.injEq] at h
        obtain ⟨rfl, rfl, rfl⟩ := h
        simp [telPot]
      · rename_i h1 h2 h3
        simp only [Option.some.injEq, Prod.mk.injEq] at h
        obtain ⟨rfl, rfl, rfl⟩ := h
        rw [(processTelnetCmd_len c none).2 (by
          rintro (g | g)
          · exact h2 (by simp [g])
          · exact h2 (by simp [g]))]
        simp [telPot]
    split at h
    · rename_i h1 h2
      simp only [Option.some.injEq, Prod.mk.injEq] at h
      obtain ⟨rfl, rfl, rfl⟩ := h
      simp only [telPot]
      rw [if_pos h2]
      have := (processTelnetCmd_len x (some c)).1
      omega
    split at h
    · rename_i h1 h2 h3
      subst h3
      have hI : telPot (some Tel.SB) = 1 := by decide
      rw [hI]
      split at h
      · rename_i hc
        simp only [Option.some.injEq, Prod.mk.injEq] at h
        obtain ⟨rfl, rfl, rfl⟩ := h
        subst hc; decide
      · simp only [Option.some.injEq, Prod.mk.injEq] at h
        obtain ⟨rfl, rfl, rfl⟩ := h
        decide
    · simp at h

theorem telRef_len {iac cs i d s} (h : telRef iac cs = some (i, d, s)) : s.length + telPot i ≤ telPot iac + cs.length := by
  induction cs generalizing iac i d s with
  | nil =>
    simp only [telRef, Option.some.injEq, Prod.mk.injEq] at h
    obtain ⟨rfl, rfl, rfl⟩ := h; simp
  | cons c cs ih =>
    simp only [telRef] at h
    cases hb : telByte iac c with
    | none => rw [hb] at h; simp at h
    | some t =>
      obtain ⟨i1, d1, s1⟩ := t
      rw [hb] at h
      dsimp only at h
      cases hr : telRef i1 cs with
      | none => rw [hr] at h; simp [telPre] at h
      | some t =>
        obtain ⟨i2, d2, s2⟩ := t
        rw [hr] at h
        simp only [telPre, Option.some.injEq, Prod.mk.injEq] at h
        obtain ⟨rfl, rfl, rfl⟩ := h
        have a := telByte_len hb
        have b := ih hr
        simp only [List.length_append, List.length_cons]
        omega

/-- The replies to one read fit the buffer. -/
theorem telChunks_len {iac i} {d app s : List UInt8} (h : telChunks iac [d] = some (i, app, s)) : s.length ≤ d.length + 2 := by
  rw [telChunks_eq] at h
  have := telRef_len h
  have hp : telPot iac ≤ 2 := by
    cases iac with
    | none => simp [telPot]
    | some x => simp only [telPot]; split <;> simp
  simp at this
  omega

end Conman
