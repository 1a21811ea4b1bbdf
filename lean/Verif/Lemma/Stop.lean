import Verif.Spec.Stop
import Verif.Props.Disk

namespace Conman
open Spec

/-! ### No object is in the list twice -/

theorem boot_nodup (cfg : List ConConf) : (World.boot cfg).live.Nodup := List.Nodup.sublist List.filter_sublist List.nodup_range

theorem Kq.nodup {w w' : World} {i : Nat} (h : Kq w w' i) (hn : w.live.Nodup) : w'.live.Nodup := by
  rcases h.live with e | ⟨_, e⟩
  · rw [e]; exact hn
  · rw [e]; exact hn.sublist List.filter_sublist

theorem step_nodup {env : Env} {w w' : World} (h : DInv w) (s : Step) (hs : w.step env s = some w') (hn : w.live.Nodup) : w'.live.Nodup := by
  have same : w'.live = w.live → w'.live.Nodup := fun e => by rw [e]; exact hn
  cases s with
  | check q =>
    simp only [World.step, Option.some.injEq] at hs
    apply same; subst hs; split <;> rfl
  | grant c k =>
    simp only [World.step, Option.some.injEq] at hs
    split at hs
    · rename_i q hq
      split at hs
      · exact same (by rw [hs])
      · rename_i hc
        have h0 := h.unwait (w.wait.eraseIdx k) (fun q hq => List.mem_of_mem_eraseIdx hq)
        have hok := h.wait q (List.mem_of_getElem? hq)
        have g := (grant_inv h0.inv env c q hok.1 hc hok.2).2
        rw [hs] at g
        rw [g.live]
        show (w.live ++ [c]).Nodup
        refine List.nodup_append.2 ⟨hn, by simp, fun a ha b hb => ?_⟩
        rw [List.mem_singleton] at hb
        subst hb
        exact fun e => hc (e ▸ ha)
    · exact same (by rw [hs])
  | poll i up rd wr =>
    simp only [World.step] at hs
    split at hs
    · simp only [Option.some.injEq] at hs; exact same (by rw [hs])
    simp only [Option.map_eq_some_iff] at hs
    obtain ⟨w1, hr, hw⟩ := hs
    have h1 : Kq w w1 i ∧ WInv w1 := by
      cases rd with
      | none => simp only [Option.some.injEq] at hr; subst hr; exact ⟨(Kp.refl _).kq i, h.inv⟩
      | some r => exact ⟨(read_inv h.inv env up i r hr).2, (read_inv h.inv env up i r hr).1⟩
    have n1 := h1.1.nodup hn
    split at hw
    · subst hw; exact n1
    split at hw
    · subst hw; exact n1
    · subst hw; exact (flush_inv h1.2 env up i _).2.nodup n1
  | connUp i =>
    simp only [World.step, Option.some.injEq] at hs
    split at hs
    · subst hs; exact ((connUp_inv h.inv env i).2.kq i).nodup hn
    · exact same (by rw [hs])
  | connPend i =>
    simp only [World.step, Option.some.injEq] at hs
    apply same; subst hs; split <;> rfl
  | connDown i =>
    simp only [World.step, Option.some.injEq] at hs
    apply same; subst hs; split <;> rfl
  | connFail i =>
    simp only [World.step, Option.some.injEq] at hs
    split at hs
    · rename_i hk'
      subst hs
      exact ((notify_step h.inv.l env i (.connFailed i) (by rw [hk'.2.1]; rfl)).lstep.kp.kq i).nodup hn
    · exact same (by rw [hs])
  | resetTimeout con =>
    simp only [World.step, Option.some.injEq] at hs
    apply same; subst hs
    split
    · split
      · rfl
      · split <;> rfl
    · rfl
  | childExit con pid =>
    simp only [World.step, Option.some.injEq] at hs
    apply same; subst hs; rfl
  | logOpen i ok =>
    simp only [World.step, Option.some.injEq] at hs
    apply same; subst hs; split <;> rfl
  | logStamp i =>
    simp only [World.step, Option.some.injEq] at hs
    apply same; subst hs; split <;> rfl

theorem Reachable.nodup {env : Env} {w : World} (h : Reachable env w) : w.live.Nodup := by
  obtain ⟨cfg, ss, hc, hr⟩ := h
  have := world_run_inv (P := fun w => DInv w ∧ w.live.Nodup) env (fun w s w' h hs => ⟨world_step_inv h.1 env s hs, step_nodup h.1 s hs h.2⟩)
    (fun w n h => ⟨h.1.tick n, h.2⟩) ss ⟨boot_inv cfg hc, boot_nodup cfg⟩ hr
  exact this.2

/-! ### What is done for one object -/

/-- The object an effect is about. -/
def EndFx.of : EndFx → Option Nat
  | .unwritten i _ | .left i | .restore i | .close i => some i
  | _ => none

theorem bye_of (o : Obj) (i : Nat) (e : EndFx) (h : e ∈ o.bye i) : e.of = some i := by
  unfold Obj.bye at h
  rw [List.mem_append, List.mem_append] at h
  rcases h with (h | h) | h
  · split at h
    · rw [List.mem_singleton] at h; subst h; rfl
    · cases h
  · split at h
    · rw [List.mem_singleton] at h; subst h; rfl
    · split at h
      · rw [List.mem_singleton] at h; subst h; rfl
      · cases h
    · cases h
  · split at h
    · rw [List.mem_singleton] at h; subst h; rfl
    · cases h

theorem bye_close (o : Obj) (i : Nat) : (o.bye i).count (.close i) = if o.fd = true then 1 else 0 := by
  cases hk : o.kind <;> cases hf : o.fd <;> by_cases hp : 0 < o.pend.length <;> simp [Obj.bye, hk, hf, hp]

theorem bye_left (o : Obj) (i : Nat) : (o.bye i).count (.left i) = if o.kind = .client then 1 else 0 := by
  cases hk : o.kind <;> cases hf : o.fd <;> by_cases hp : 0 < o.pend.length <;> simp [Obj.bye, hk, hf, hp]

theorem stop_mem (w : World) (p : Bool) (g : Option Nat) (e : EndFx) {i : Nat} (he : e.of = some i) : e ∈ w.stop p g ↔ i ∈ w.live ∧ e ∈ (w.obj i).bye i := by
  unfold World.stop
  simp only [List.mem_append, List.mem_flatMap, List.mem_singleton]
  constructor
  · rintro (((h | h) | ⟨j, hj, h⟩) | h)
    · split at h
      · rw [List.mem_singleton] at h; subst h; cases he
      · cases h
    · subst h; cases he
    · have := bye_of _ _ _ h
      rw [he] at this; cases this
      exact ⟨hj, h⟩
    · cases g with
      | none => cases h
      | some g => rw [Option.map_some, Option.toList_some, List.mem_singleton] at h; subst h; cases he
  · rintro ⟨h1, h2⟩
    exact .inl (.inr ⟨i, h1, h2⟩)

theorem bye_count_flat (f : Nat → Obj) (e : EndFx) {i : Nat} (he : e.of = some i) : ∀ l : List Nat, l.Nodup →
    (l.flatMap fun j => (f j).bye j).count e = if i ∈ l then ((f i).bye i).count e else 0 := by
  intro l
  induction l with
  | nil => intro _; rfl
  | cons j l ih =>
    intro hn
    rw [List.nodup_cons] at hn
    rw [List.flatMap_cons, List.count_append, ih hn.2]
    by_cases hj : i = j
    · subst hj
      rw [if_neg hn.1, if_pos (List.mem_cons_self ..)]; rfl
    · have : ((f j).bye j).count e = 0 := by
        rw [List.count_eq_zero]
        intro h
        have := bye_of _ _ _ h
        rw [he] at this; cases this; exact hj rfl
      rw [this, Nat.zero_add]
      by_cases hm : i ∈ l
      · rw [if_pos hm, if_pos (List.mem_cons_of_mem _ hm)]
      · rw [if_neg hm, if_neg (by rw [List.mem_cons]; exact fun h => h.elim hj hm)]

theorem stop_count (w : World) (p : Bool) (g : Option Nat) (hn : w.live.Nodup) (e : EndFx) {i : Nat} (he : e.of = some i) :
    (w.stop p g).count e = if i ∈ w.live then ((w.obj i).bye i).count e else 0 := by
  have z1 : (if p then [EndFx.pidFile] else []).count e = 0 := by
    rw [List.count_eq_zero]; intro h
    split at h
    · rw [List.mem_singleton] at h; subst h; cases he
    · cases h
  have z2 : [EndFx.listen].count e = 0 := by
    rw [List.count_eq_zero]; intro h
    rw [List.mem_singleton] at h; subst h; cases he
  have z3 : (g.map EndFx.term).toList.count e = 0 := by
    rw [List.count_eq_zero]; intro h
    cases g with
    | none => cases h
    | some g => rw [Option.map_some, Option.toList_some, List.mem_singleton] at h; subst h; cases he
  unfold World.stop
  rw [List.count_append, List.count_append, List.count_append, z1, z2, z3, bye_count_flat w.obj e he _ hn]
  omega

/-- What is done for one object, after what is done for others and before what is done for others. -/
theorem stop_split (w : World) (p : Bool) (g : Option Nat) (hn : w.live.Nodup) {i : Nat} (hi : i ∈ w.live) :
    ∃ x y, w.stop p g = x ++ (w.obj i).bye i ++ y ∧ ∀ e ∈ x ++ y, e.of ≠ some i := by
  obtain ⟨a, b, hab⟩ := List.append_of_mem hi
  rw [hab, List.nodup_append] at hn
  obtain ⟨_, hb, hd⟩ := hn
  rw [List.nodup_cons] at hb
  have other : ∀ l : List Nat, i ∉ l → ∀ e ∈ l.flatMap (fun j => (w.obj j).bye j), e.of ≠ some i := by
    intro l hl e he h
    obtain ⟨j, hj, hm⟩ := List.mem_flatMap.1 he
    rw [bye_of _ _ _ hm] at h; cases h; exact hl hj
  refine ⟨(if p then [.pidFile] else []) ++ [.listen] ++ a.flatMap (fun i => (w.obj i).bye i), b.flatMap (fun i => (w.obj i).bye i) ++ (g.map EndFx.term).toList, ?_, ?_⟩
  · unfold World.stop
    rw [hab, List.flatMap_append, List.flatMap_cons]
    simp only [List.append_assoc]
  · intro e he
    simp only [List.mem_append] at he
    rcases he with ((he | he) | he) | (he | he)
    · split at he
      · rw [List.mem_singleton] at he; subst he; exact nofun
      · cases he
    · rw [List.mem_singleton] at he; subst he; exact nofun
    · exact other a (fun h => hd i h i (List.mem_cons_self ..) rfl) e he
    · exact other b hb.1 e he
    · cases g with
      | none => cases he
      | some g => rw [Option.map_some, Option.toList_some, List.mem_singleton] at he; subst he; exact nofun

/-! ### What is not written at the end is never written -/

theorem take_sent {d : Disk} {env : Env} {s : Step} {w : World} {l : Nat} (hs : d.w.step env s = some w) (hn : noWrite l (.step s) = true) :
    sentTo l (d.take w).w.fx = sentTo l d.w.fx := by
  obtain ⟨m, e1, e2⟩ := step_sent env s hs
  show sentTo l w.fx = _
  rw [e1, sentTo_append, sentTo_none l m, List.append_nil]
  intro x hx
  obtain ⟨_, up, rd, wr, e⟩ := e2 l x hx
  subst e
  simp [noWrite] at hn

theorem disk_quiet {c : SConf} {pid : Int} {env : Env} {l : Nat} (es : List DiskEv) : ∀ {d d' : Disk}, d.run c pid env es = some d' → es.all (noWrite l) = true →
    sentTo l d'.w.fx = sentTo l d.w.fx := by
  induction es with
  | nil => intro d d' h _; cases h; rfl
  | cons e es ih =>
    intro d d' h hn
    rw [Disk.run, Option.bind_eq_some_iff] at h
    obtain ⟨d1, h1, h2⟩ := h
    rw [List.all_cons, Bool.and_eq_true] at hn
    rw [ih h2 hn.2]
    cases e with
    | step s =>
      rw [Disk.step] at h1
      split at h1
      · cases h1; rfl
      · obtain ⟨w, hw, rfl⟩ := Option.map_eq_some_iff.1 h1
        exact take_sent hw hn.1
    | openLog m ok tm =>
      rw [Disk.step] at h1
      split at h1
      · cases h1; rfl
      · obtain ⟨o, _, h1⟩ := Option.bind_eq_some_iff.1 h1
        obtain ⟨w, hw, rfl⟩ := Option.map_eq_some_iff.1 h1
        exact take_sent (d := d) hw rfl
    | rename a b => cases h1; rfl
    | remove a => cases h1; rfl
    | other i x => rw [Disk.step] at h1; cases h1; split <;> rfl
    | hold i b => cases h1; rfl

theorem disk_append {c : SConf} {pid : Int} {env : Env} (es es' : List DiskEv) : ∀ d : Disk, d.run c pid env (es ++ es') = (d.run c pid env es).bind fun d => d.run c pid env es' := by
  induction es with
  | nil => intro d; rfl
  | cons e es ih =>
    intro d
    rw [List.cons_append, Disk.run, Disk.run]
    cases h : d.step c pid env e with
    | none => rfl
    | some d1 => exact ih d1

theorem alone_append {c : SConf} {pid : Int} {env : Env} {nm : List UInt8} (es es' : List DiskEv) : ∀ d : Disk, leftAlone c pid env nm d (es ++ es') = true → leftAlone c pid env nm d es = true := by
  induction es with
  | nil => intro d _; rfl
  | cons e es ih =>
    intro d h
    rw [List.cons_append, leftAlone, Bool.and_eq_true] at h
    rw [leftAlone, Bool.and_eq_true]
    refine ⟨h.1, ?_⟩
    have h2 := h.2
    cases hd : d.step c pid env e with
    | none => rfl
    | some d1 => rw [hd] at h2; exact ih d1 h2

end Conman
