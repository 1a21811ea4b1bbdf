import Verif.Lemma.WorldProp

/-
How the links between objects change in a step.
-/
namespace Conman
open Spec

/-- A client keeps its links unless it is marked end-of-file. -/
structure CKo (o o' : Obj) : Prop where
  kind : o'.kind = o.kind
  eof : o.eof = true → o'.eof = true
  links : o'.eof = false → o'.readers = o.readers ∧ o'.writers = o.writers

theorem CKo.refl (o : Obj) : CKo o o := ⟨rfl, id, fun _ => ⟨rfl, rfl⟩⟩
theorem CKo.trans {a b c : Obj} (h : CKo a b) (h' : CKo b c) : CKo a c := by
  refine ⟨by rw [h'.kind, h.kind], fun e => h'.eof (h.eof e), fun e => ?_⟩
  have hb : b.eof = false := by
    cases hb : b.eof
    · rfl
    · rw [h'.eof hb] at e; simp at e
  rw [(h'.links e).1, (h'.links e).2]; exact h.links hb

/-- All clients but `i` keep their links unless end-of-file. -/
def CK (i : Nat) (w w' : World) : Prop := ∀ x, x ≠ i → (w.obj x).kind = .client → CKo (w.obj x) (w'.obj x)

theorem CK.refl (i : Nat) (w : World) : CK i w w := fun _ _ _ => .refl _
theorem CK.trans {i : Nat} {a b c : World} (h : CK i a b) (h' : CK i b c) : CK i a c :=
  fun x hx hk => (h x hx hk).trans (h' x hx (by rw [(h x hx hk).kind]; exact hk))

theorem LStep.ck {w w' : World} (h : LStep w w') (i : Nat) : CK i w w' := fun x _ _ =>
  ⟨(h.loc x).kind, fun e => by rw [(h.loc x).eof]; exact e, fun _ => ⟨(h.loc x).rd, (h.loc x).wr⟩⟩
theorem CK.mod (w : World) (i : Nat) (f : Obj → Obj) : CK i w (w.mod i f) := fun x hx _ => by
  rw [World.mod_ne _ _ hx]; exact .refl _

/-- No new links, except from `c` to one of its writers if `g`. -/
def NG (w w' : World) : Prop := ∀ a b, b ∈ (w'.obj a).readers → b ∈ (w.obj a).readers
theorem NG.refl (w : World) : NG w w := fun _ _ h => h
theorem NG.trans {a b c : World} (h : NG a b) (h' : NG b c) : NG a c := fun x y hh => h x y (h' x y hh)
theorem SL.ng {w w' : World} (h : SL w w') : NG w w' := fun a b hb => by rw [(h.1 a).2.1] at hb; exact hb

theorem shutdown_links {w : World} (h : WInv w) (env : Env) (up : Bool) (i : Nat) :
    CK i w (w.shutdown env up i) ∧ NG w (w.shutdown env up i) := by
  unfold World.shutdown
  split
  · exact ⟨.refl _ _, .refl _⟩
  simp only
  have c1 : CK i w (w.mod i (fun o =>
      { o with fd := false, pin := false, pout := false, pend := [], eof := false, gen := o.gen + 1, hist := o.hist ++ [none] })) := .mod _ _ _
  have hsl : SL w (w.mod i (fun o =>
      { o with fd := false, pin := false, pout := false, pend := [], eof := false, gen := o.gen + 1, hist := o.hist ++ [none] })) := by
    refine ⟨fun j => ?_, rfl⟩
    rw [World.mod_obj]; split <;> exact ⟨rfl, rfl, rfl⟩
  generalize (w.mod i (fun o =>
      { o with fd := false, pin := false, pout := false, pend := [], eof := false, gen := o.gen + 1, hist := o.hist ++ [none] })) = w1 at c1 hsl ⊢
  have hl1 := h.l.same hsl
  have fin : ∀ v, SL w1 v → CK i w1 v → ∀ n, (v.obj i).kind.isConsole = true →
      CK i w (v.notify env i n) ∧ NG w (v.notify env i n) := by
    intro v hv hc n hk
    have n1 := (notify_step (hl1.same hv) env i n hk).lstep
    exact ⟨c1.trans (hc.trans (n1.ck i)), hsl.ng.trans (hv.ng.trans n1.sl.ng)⟩
  cases hk : (w1.obj i).kind
  case client =>
    have u := unlinkObj_spec hl1 env i
    refine ⟨c1.trans (fun x hx hkx => ⟨u.pstep.kind x, u.eofOld x, fun _ => ?_⟩), hsl.ng.trans (fun a b hb => ?_)⟩
    · show ((w1.unlinkObj env i).obj x).readers = _ ∧ ((w1.unlinkObj env i).obj x).writers = _
      rw [u.rd x, u.wr x, if_neg hx, if_neg hx]
      constructor
      · apply filter_ne_of_not_mem
        intro hh; exact not_client_of_console (hl1.client_readers hkx hh) hk
      · apply filter_ne_of_not_mem
        intro hh; exact not_client_of_console (hl1.client_writers hkx hh) hk
    · have hb : b ∈ ((w1.unlinkObj env i).obj a).readers := hb
      rw [u.rd a] at hb
      split at hb
      · simp at hb
      · exact (List.mem_filter.1 hb).1
  case logfile => exact ⟨c1, hsl.ng⟩
  case serial =>
    have hs2 : SL w1 (w1.mod i (fun o => { o with fd := up, pin := up })) := by
      refine ⟨fun j => ?_, rfl⟩
      rw [World.mod_obj]; split <;> exact ⟨rfl, rfl, rfl⟩
    simp only
    split
    · exact fin _ hs2 (.mod _ _ _) _ (by rw [(hs2.1 i).1, hk]; rfl)
    · exact ⟨c1.trans (.mod _ _ _), hsl.ng.trans hs2.ng⟩
  case test =>
    have hs2 : SL w1 (w1.mod i (fun o => { o with fd := up, pin := up })) := by
      refine ⟨fun j => ?_, rfl⟩
      rw [World.mod_obj]; split <;> exact ⟨rfl, rfl, rfl⟩
    exact ⟨c1.trans (.mod _ _ _), hsl.ng.trans hs2.ng⟩
  all_goals
    have hs2 : SL w1 (w1.mod i (fun o => { o with conn := .down })) := by
      refine ⟨fun j => ?_, rfl⟩
      rw [World.mod_obj]; split <;> exact ⟨rfl, rfl, rfl⟩
    exact fin _ hs2 (.mod _ _ _) _ (by rw [(hs2.1 i).1, hk]; rfl)

/-- The client's commands that switch between read-only and read-write. -/
def isSwitch (a : UInt8) : Bool := a = 0x46 || a = 0x4A || a = 0x4D

/-- Effect of a switch on the links. -/
structure Tog (c : Nat) (w w' : World) : Prop where
  wr : (w'.obj c).writers = (w.obj c).writers
  rd : (w.obj c).bcast = true ∧ (w'.obj c).readers = (w.obj c).readers ∨
    (w.obj c).bcast = false ∧ ∃ con, (w.obj c).writers = [con] ∧
     ((w.obj c).readers = [con] ∧ (w'.obj c).readers = [] ∨ (w.obj c).readers = [] ∧ (w'.obj c).readers = [con])
  eof : (w'.obj c).eof = (w.obj c).eof
  bcast : (w'.obj c).bcast = (w.obj c).bcast
  gain : ∀ a b, b ∈ (w'.obj a).readers → b ∈ (w.obj a).readers ∨
    (a = c ∧ (w.obj c).writers = [b] ∧ (w.obj c).readers = [])
  ck : CK c w w'

theorem toggle_links {w w' : World} {x : Option Nat} (h : WInvX w x) (env : Env) (c : Nat) (hx : some c ≠ x)
    (hk : (w.obj c).kind = .client) (ht : w.toggle env c = some w') : Tog c w w' := by
  unfold World.toggle at ht
  split at ht
  · rename_i hb
    simp only [Option.some.injEq] at ht; subst ht
    exact ⟨rfl, Or.inl ⟨hb, rfl⟩, rfl, rfl, fun a b hb => Or.inl hb, .refl _ _⟩
  rename_i hb
  have hb : (w.obj c).bcast = false := by simpa using hb
  split at ht
  · simp at ht
  rename_i con t hw
  have hcs := (h.cs c hx hk).2 hb
  rw [hw] at hcs
  have hcs' : t = [] ∧ ((w.obj c).readers = [] ∨ (w.obj c).readers = [con]) := by
    rcases hcs with h1 | ⟨con', h1, h2⟩
    · simp at h1
    · simp only [List.cons.injEq] at h1; rw [h1.1]; exact ⟨h1.2, h2⟩
  obtain ⟨rfl, hrd⟩ := hcs'
  have hcon : (w.obj con).kind.isConsole = true := h.l.client_writers hk (x := con) (by simp [hw])
  have hlv := h.l.live con c ((h.l.sym con c).2 (by simp [hw]))
  have hne : c ≠ con := by rintro rfl; exact not_client_of_console hcon hk
  have hms : ∀ cm, LStep w (w.mod c (fun o => { o with cmd := cm })) := fun cm =>
    .mod _ _ _ ⟨rfl, rfl, rfl, rfl, rfl, rfl, rfl, fun h => ⟨h.cap, h.susp, h.closed⟩⟩
  split at ht
  · rename_i hr
    have hr : (w.obj c).readers = [con] := by
      rcases hrd with h1 | h1
      · exact absurd h1 hr
      · exact h1
    simp only [Option.some.injEq] at ht
    subst ht
    have s := hms .monitor
    have u := unlinkObjs_spec (h.wstep s.ws).l env c con
    have hw' : (((w.mod c (fun o => { o with cmd := .monitor })).unlinkObjs env c con).obj c).writers = [con] := by
      rw [u.wr c, if_neg hne, (s.loc c).wr, hw]
    refine ⟨by rw [hw', hw], Or.inr ⟨hb, con, hw, Or.inl ⟨hr, ?_⟩⟩, ?_, ?_, ?_, ?_⟩
    · rw [u.rd c, if_pos rfl, (s.loc c).rd, hr]; simp
    · cases he : (w.obj c).eof
      · cases he' : (((w.mod c (fun o => { o with cmd := .monitor })).unlinkObjs env c con).obj c).eof
        · rfl
        · rcases u.eofNew c he' with h1 | h1
          · rw [(s.loc c).eof, he] at h1; simp at h1
          · rw [Obj.orphan_iff] at h1; rw [hw'] at h1; simp at h1
      · exact u.eofOld c (by rw [(s.loc c).eof]; exact he)
    · rw [(u.pstep.touched c).same.bcast, (s.loc c).bcast]
    · intro a b hb'
      rw [u.rd a] at hb'
      rw [(s.loc a).rd] at hb'
      left
      split at hb'
      · exact (List.mem_filter.1 hb').1
      · exact hb'
    · refine (s.ck c).trans (fun y hy hky => ⟨u.pstep.kind y, u.eofOld y, fun _ => ?_⟩)
      have hyc : y ≠ con := by
        rintro rfl; rw [(s.loc y).kind] at hky; exact not_client_of_console hcon hky
      rw [u.rd y, u.wr y, if_neg hy, if_neg hyc]; exact ⟨rfl, rfl⟩
  · rename_i hn
    simp only [Option.some.injEq] at ht
    have hr : (w.obj c).readers = [] := by simpa using hn
    subst ht
    have s := hms .connect
    have ok : LinkOk (w.mod c (fun o => { o with cmd := .connect })) c con := by
      refine ⟨Or.inl ⟨?_, ?_⟩, ?_, ?_⟩
      · rw [(s.loc c).kind]; exact hk
      · rw [(s.loc con).kind]; exact hcon
      · rw [(s.loc c).rd, hr]; simp
      · rw [s.live]; exact ⟨hlv.2, hlv.1⟩
    have hl1 := (h.wstep s.ws).l
    have sp := linkObjs_spec hl1 env ok
    have hkc : ((w.mod c (fun o => { o with cmd := .connect })).obj c).kind = .client := by rw [(s.loc c).kind]; exact hk
    have hS : c ∉ (w.mod c (fun o => { o with cmd := .connect })).stealSet c con := fun hh => (stealSet_ne hl1 ok hh).1 rfl
    obtain ⟨lr, lw⟩ := sp.client_links hl1 c hkc
    rw [if_neg hS, (s.loc c).rd, hr] at lr
    rw [if_neg hS, (s.loc c).wr, hw] at lw
    refine ⟨?_, Or.inr ⟨hb, con, hw, Or.inr ⟨hr, ?_⟩⟩, ?_, ?_, ?_, ?_⟩
    · rw [lw, hw]; simp [hne]
    · rw [lr]; simp
    · cases he : (w.obj c).eof
      · cases he' : (((w.mod c (fun o => { o with cmd := .connect })).linkObjs env c con).obj c).eof
        · rfl
        · rcases sp.eofNew c he' with h1 | h1
          · rw [(s.loc c).eof, he] at h1; simp at h1
          · exact absurd h1.2 hS
      · exact sp.eofOld c (by rw [(s.loc c).eof]; exact he)
    · rw [(sp.pstep.touched c).same.bcast, (s.loc c).bcast]
    · intro a b hb'
      rw [sp.rd a, List.mem_append] at hb'
      rcases hb' with h1 | h1
      · left
        split at h1
        · simp at h1
        · have := (List.mem_filter.1 h1).1
          rw [(s.loc a).rd] at this; exact this
      · right
        split at h1
        · rename_i e
          simp only [List.mem_singleton] at h1
          exact ⟨e, by rw [hw, h1], hr⟩
        · simp at h1
    · refine (s.ck c).trans (fun y hy hky => ⟨sp.pstep.kind y, sp.eofOld y, fun he => ?_⟩)
      have hyc : y ≠ con := by
        rintro rfl; rw [(s.loc y).kind] at hky; exact not_client_of_console hcon hky
      obtain ⟨yr, yw⟩ := sp.client_links hl1 y hky
      have hyS : y ∉ (w.mod c (fun o => { o with cmd := .connect })).stealSet c con := by
        intro hh
        rw [linkObjs_stolen_eof hl1 env hh] at he; simp at he
      rw [yr, yw, if_neg hyS, if_neg hyS, if_neg hy, if_neg hyc]; simp

/-- One command of the client. -/
theorem act_links {w w' : World} {x : Option Nat} (h : WInvX w x) (env : Env) (c : Nat) (hx : some c ≠ x)
    (hk : (w.obj c).kind = .client) (a : UInt8) (ht : w.act env c a = some w') :
    (isSwitch a = true ∧ Tog c w w') ∨ (isSwitch a = false ∧ LStep w w') := by
  have htog : ∀ f j, (w.mod c (fun o => { o with force := f, join := j })).toggle env c = some w' →
      Tog c w w' := by
    intro f j hh
    have s : LStep w (w.mod c (fun o => { o with force := f, join := j })) :=
      .mod _ _ _ ⟨rfl, rfl, rfl, rfl, rfl, rfl, rfl, fun h => ⟨h.cap, h.susp, h.closed⟩⟩
    have t := toggle_links (h.wstep s.ws) env c hx (by rw [(s.loc c).kind]; exact hk) hh
    refine ⟨by rw [t.wr, (s.loc c).wr], ?_, by rw [t.eof, (s.loc c).eof], by rw [t.bcast, (s.loc c).bcast], ?_,
      (s.ck c).trans t.ck⟩
    · have := t.rd
      rw [(s.loc c).rd, (s.loc c).wr, (s.loc c).bcast] at this; exact this
    · intro a b hb
      have := t.gain a b hb
      rw [(s.loc c).rd, (s.loc c).wr, (s.loc a).rd] at this; exact this
  unfold World.act at ht
  split at ht
  · rename_i e
    simp only [Option.some.injEq] at ht; subst ht e
    exact Or.inr ⟨rfl, .foldl _ _ _ (fun v a _ _ => break1_lstep v a)⟩
  split at ht
  · rename_i e
    simp only [Option.some.injEq] at ht; subst ht e
    exact Or.inr ⟨rfl, .foldl _ _ _ (fun v a _ _ => .mod _ _ _ (.write _ _ _))⟩
  split at ht
  · rename_i e; subst e; exact Or.inl ⟨rfl, htog _ _ ht⟩
  split at ht
  · rename_i e; subst e; exact Or.inl ⟨rfl, htog _ _ ht⟩
  split at ht
  · rename_i e; subst e
    split at ht
    · simp only [Option.some.injEq] at ht; subst ht; exact Or.inr ⟨rfl, .refl _⟩
    · simp only [Option.some.injEq] at ht; subst ht; exact Or.inr ⟨rfl, .mod _ _ _ (.write _ _ _)⟩
  split at ht
  · rename_i e; subst e; exact Or.inl ⟨rfl, htog _ _ ht⟩
  split at ht
  · rename_i e; subst e
    simp only [Option.some.injEq] at ht; subst ht
    refine Or.inr ⟨rfl, .mod _ _ _ (OLoc.trans ?_ (.write _ _ _))⟩
    exact ⟨rfl, rfl, rfl, rfl, rfl, rfl, rfl, fun h => ⟨h.cap, h.susp, h.closed⟩⟩
  split at ht
  · rename_i e; subst e
    simp only [Option.some.injEq] at ht; subst ht
    refine Or.inr ⟨rfl, .foldl _ _ _ (fun v a ha hv => reset1_lstep (h.l.same hv.sl) env c a ?_)⟩
    rw [(hv.loc a).kind]; exact h.l.client_readers hk ha
  split at ht
  · rename_i e; subst e
    simp only [Option.some.injEq] at ht; subst ht
    refine Or.inr ⟨rfl, .mod _ _ _ ⟨rfl, rfl, rfl, rfl, rfl, rfl, rfl, fun h => ⟨h.cap, ?_, ?_⟩⟩⟩
    · intro _ hs; simp only at hs ⊢; simp at hs; simp [hs]
    · intro hf; simp only at hf ⊢; exact ⟨(h.closed hf).1, by simp [hf]⟩
  · rename_i h1 h2 h3 h4 h5 h6 h7 h8 h9
    simp only [Option.some.injEq] at ht; subst ht
    exact Or.inr ⟨by simp [isSwitch, h3, h4, h6], .refl _⟩

/-- Whether a client that is read-write (`m`) is so after the commands `as`. -/
def modeAfter (m : Bool) (as : List UInt8) : Bool := as.foldl (fun m a => if isSwitch a then !m else m) m

/-- All commands of one read. -/
theorem acts_links (env : Env) (c : Nat) (as : List UInt8) :
    ∀ {w w' : World}, WInv w → (w.obj c).kind = .client → w.acts env c as = some w' →
    (w'.obj c).writers = (w.obj c).writers ∧ (w'.obj c).eof = (w.obj c).eof ∧
    (w'.obj c).bcast = (w.obj c).bcast ∧ CK c w w' ∧
    (∀ a b, b ∈ (w'.obj a).readers → b ∈ (w.obj a).readers ∨
      (a = c ∧ (w.obj c).writers = [b] ∧ as.any isSwitch = true)) ∧
    ((w.obj c).bcast = true → (w'.obj c).readers = (w.obj c).readers) ∧
    ((w.obj c).bcast = false → (decide ((w'.obj c).readers ≠ []) = modeAfter (decide ((w.obj c).readers ≠ [])) as)) := by
  induction as with
  | nil =>
    intro w w' h hk ht; simp only [World.acts, Option.some.injEq] at ht; subst ht
    exact ⟨rfl, rfl, rfl, .refl _ _, fun a b hb => Or.inl hb, fun _ => rfl, fun _ => rfl⟩
  | cons a as ih =>
    intro w w' h hk ht
    simp only [World.acts, Option.bind_eq_some_iff] at ht
    obtain ⟨w1, h1, h2⟩ := ht
    obtain ⟨h3, h4⟩ := act_inv h env c (by simp) hk a h1
    obtain ⟨i1, i2, i3, i4, i5, i6, i7⟩ := ih h3 (by rw [h4.kind]; exact hk) h2
    rcases act_links h env c (by simp) hk a h1 with ⟨hs, t⟩ | ⟨hs, l⟩
    · refine ⟨by rw [i1, t.wr], by rw [i2, t.eof], by rw [i3, t.bcast], t.ck.trans i4, ?_, ?_, ?_⟩
      · intro p b hb
        rcases i5 p b hb with g | g
        · rcases t.gain p b g with g' | g'
          · exact Or.inl g'
          · exact Or.inr ⟨g'.1, g'.2.1, by simp [hs]⟩
        · right; rw [t.wr] at g; exact ⟨g.1, g.2.1, by simp [g.2.2]⟩
      · intro hb
        rw [i6 (by rw [t.bcast]; exact hb)]
        rcases t.rd with g | g
        · exact g.2
        · rw [hb] at g; simp at g
      · intro hb
        rw [i7 (by rw [t.bcast]; exact hb)]
        rcases t.rd with g | ⟨_, con, hw, g | g⟩
        · rw [hb] at g; simp at g
        · simp [modeAfter, hs, g.1, g.2]
        · simp [modeAfter, hs, g.1, g.2]
    · refine ⟨by rw [i1, (l.loc c).wr], by rw [i2, (l.loc c).eof], by rw [i3, (l.loc c).bcast], (l.ck c).trans i4, ?_, ?_, ?_⟩
      · intro p b hb
        rcases i5 p b hb with g | g
        · rw [(l.loc p).rd] at g; exact Or.inl g
        · right; rw [(l.loc c).wr] at g; exact ⟨g.1, g.2.1, by simp [g.2.2]⟩
      · intro hb
        rw [i6 (by rw [(l.loc c).bcast]; exact hb), (l.loc c).rd]
      · intro hb
        rw [i7 (by rw [(l.loc c).bcast]; exact hb), (l.loc c).rd]
        simp [modeAfter, hs]

/-- The commands in one read of a client. -/
def cmdsOf (o : Obj) (d : List UInt8) : List UInt8 := (unescRef o.gotEscape (d.take readBufSize)).2.2

theorem cmdsOf_eq (o : Obj) (d : List UInt8) :
    (processClientEscapes o.gotEscape (d.take readBufSize)).acts = cmdsOf o d := by
  have := processClientEscapes_eq o.gotEscape (d.take readBufSize)
  unfold cmdsOf; rw [← this]

/-- Links after a read. -/
theorem read_links {w w' : World} (h : WInv w) (env : Env) (up : Bool) (i : Nat) (r : ReadRes)
    (ht : w.read env up i r = some w') :
    CK i w w' ∧ ∀ a b, b ∈ (w'.obj a).readers → b ∈ (w.obj a).readers ∨
      (a = i ∧ (w.obj i).kind = .client ∧ (w.obj i).writers = [b] ∧ ∃ d, r = .data d ∧ (cmdsOf (w.obj i) d).any isSwitch = true) := by
  have triv : w' = w → CK i w w' ∧ ∀ a b, b ∈ (w'.obj a).readers → b ∈ (w.obj a).readers ∨
      (a = i ∧ (w.obj i).kind = .client ∧ (w.obj i).writers = [b] ∧ ∃ d, r = .data d ∧ (cmdsOf (w.obj i) d).any isSwitch = true) := by
    rintro rfl; exact ⟨.refl _ _, fun _ _ h => Or.inl h⟩
  unfold World.read at ht
  split at ht
  · simp only [Option.some.injEq] at ht; exact triv ht.symm
  split at ht
  · simp only [Option.some.injEq] at ht; exact triv ht.symm
  cases hr : (if (w.obj i).kind = .logfile then .err else r : ReadRes) with
  | again => simp only [hr, Option.some.injEq] at ht; exact triv ht.symm
  | err =>
    simp only [hr, Option.some.injEq] at ht; subst ht
    have := shutdown_links h env up i
    exact ⟨this.1, fun a b hb => Or.inl (this.2 a b hb)⟩
  | eof =>
    simp only [hr, Option.some.injEq] at ht
    have s1 : WStep w (w.mod i (fun o => { o with eof := true, pin := false })) := by
      refine .mod _ _ _ ⟨rfl, rfl, rfl, rfl, fun _ _ => rfl, fun ho => ⟨ho.cap, ho.susp, ?_⟩⟩
      intro hf; exact ⟨rfl, (ho.closed hf).2⟩
    have h1 := h.wstep s1
    subst ht
    split
    · have := shutdown_links h1 env up i
      exact ⟨(CK.mod _ _ _).trans this.1, fun a b hb => Or.inl ((s1.sl.ng.trans this.2) a b hb)⟩
    · exact ⟨.mod _ _ _, fun a b hb => Or.inl (s1.sl.ng a b hb)⟩
  | data d0 =>
    have hr' : r = .data d0 := by
      split at hr
      · simp at hr
      · exact hr
    subst hr'
    simp only [hr] at ht
    split at ht
    · rename_i hk
      simp only [Option.map_eq_some_iff] at ht
      obtain ⟨w1, h1, rfl⟩ := ht
      rw [cmdsOf_eq] at h1
      obtain ⟨i1, i2, i3, i4, i5, i6, i7⟩ := acts_links env i _ h hk h1
      have s1 : LStep w1 (w1.mod i (fun o => { o with
          gotEscape := (processClientEscapes (w.obj i).gotEscape (d0.take readBufSize)).gotEscape })) :=
        .mod _ _ _ ⟨rfl, rfl, rfl, rfl, rfl, rfl, rfl, fun h => ⟨h.cap, h.susp, h.closed⟩⟩
      have s2 := s1.trans (deliver_lstep _ env i
        (processClientEscapes (w.obj i).gotEscape (d0.take readBufSize)).data)
      refine ⟨i4.trans (s2.ck i), fun a b hb => ?_⟩
      rw [(s2.loc a).rd] at hb
      rcases i5 a b hb with g | g
      · exact Or.inl g
      · exact Or.inr ⟨g.1, hk, g.2.1, d0, rfl, g.2.2⟩
    · simp only [Option.map_eq_some_iff] at ht
      obtain ⟨t, h1, rfl⟩ := ht
      have s1 : LStep w (w.mod i (fun o => ({ o with iac := t.iac }).write t.sent false)) := by
        refine .mod _ _ _ (OLoc.trans ?_ (.write _ _ _))
        exact ⟨rfl, rfl, rfl, rfl, rfl, rfl, rfl, fun h => ⟨h.cap, h.susp, h.closed⟩⟩
      have s2 := s1.trans (deliver_lstep _ env i (t.buf.take t.len))
      exact ⟨s2.ck i, fun a b hb => Or.inl (s2.sl.ng a b hb)⟩
    · simp only [Option.some.injEq] at ht
      subst ht
      have s2 := deliver_lstep w env i (d0.take readBufSize)
      exact ⟨s2.ck i, fun a b hb => Or.inl (s2.sl.ng a b hb)⟩

theorem flush_links {w : World} (h : WInv w) (env : Env) (up : Bool) (i : Nat) (r : WriteRes) :
    CK i w (w.flush env up i r) ∧ NG w (w.flush env up i r) := by
  unfold World.flush
  simp only
  have s1 := push_ws w i (r.count (w.obj i).pend.length)
  have s2 := drained_ws (w.push i (r.count (w.obj i).pend.length)) i
  have h1 := (h.wstep s1).wstep s2
  have c1 : CK i w ((w.push i (r.count (w.obj i).pend.length)).drained i) := by
    have a : CK i w (w.push i (r.count (w.obj i).pend.length)) := by
      intro x hx _; unfold World.push; rw [World.mod_ne _ _ hx]; exact .refl _
    refine a.trans ?_
    unfold World.drained
    split
    · exact .mod _ _ _
    · exact .refl _ _
  have n1 := s1.sl.ng.trans s2.sl.ng
  split
  · exact ⟨.refl _ _, .refl _⟩
  split
  · exact ⟨.refl _ _, .refl _⟩
  split
  · have := shutdown_links h1 env up i
    exact ⟨c1.trans this.1, n1.trans this.2⟩
  · exact ⟨c1, n1⟩

/-- Links made by a request. -/
theorem grant_links {w : World} (h : WInv w) (env : Env) (c : Nat) (q : Req)
    (hc : c ∉ w.live) (ok : w.reqOk q) :
    CK c w (w.grant env c q) ∧
    ∀ a b, b ∈ ((w.grant env c q).obj a).readers → b ∈ (w.obj a).readers ∨
      (a = c ∧ b ∈ q.consoles ∧ q.cmd = .connect) ∨ (b = c ∧ a ∈ q.consoles) := by
  obtain ⟨hnd, hcons⟩ := ok
  have s0 := Setup.init h q hc
  have hcr := (h.l.fresh hc).1
  have hk0 : ((w.newClient c q).obj c).kind = .client := by rw [newClient_obj, if_pos rfl]
  have hcl : c ∈ (w.newClient c q).live := by show c ∈ w.live ++ [c]; simp
  have hcons' : ∀ x ∈ q.consoles, x ∈ (w.newClient c q).live ∧ ((w.newClient c q).obj x).kind.isConsole = true := by
    intro x hx
    have := hcons x hx
    have hne : x ≠ c := by rintro rfl; exact hc this.1
    rw [newClient_obj, if_neg hne]
    refine ⟨?_, this.2⟩
    show x ∈ w.live ++ [c]
    simp [this.1]
  have c0 : CK c w (w.newClient c q) := by intro x hx _; rw [newClient_obj, if_neg hx]; exact .refl _
  have n0 : NG w (w.newClient c q) := by
    intro a b hb; rw [newClient_obj] at hb; split at hb
    · simp at hb
    · exact hb
  have lk : ∀ {v : World} {src dst : Nat}, LInv v → LinkOk v src dst → (src = c ∨ dst = c) →
      (v.obj c).kind = .client →
      CK c v (v.linkObjs env src dst) ∧ ∀ a b, b ∈ ((v.linkObjs env src dst).obj a).readers →
        b ∈ (v.obj a).readers ∨ (a = src ∧ b = dst) := by
    intro v src dst hl ok he hkc
    have sp := linkObjs_spec hl env ok
    refine ⟨fun y hy hky => ⟨sp.pstep.kind y, sp.eofOld y, fun hev => ?_⟩, fun a b hb => ?_⟩
    · obtain ⟨yr, yw⟩ := sp.client_links hl y hky
      have hyS : y ∉ v.stealSet src dst := by
        intro hh
        rw [linkObjs_stolen_eof hl env hh] at hev; simp at hev
      have hyn : ∀ z, (v.obj z).kind.isConsole = true → y ≠ z := by
        rintro z hz rfl; exact not_client_of_console hz hky
      have hcn : ∀ z, (v.obj z).kind.isConsole = true → z ≠ c := by
        rintro z hz rfl; exact not_client_of_console hz hkc
      have hys : y ≠ src ∧ y ≠ dst := by
        rcases ok.kinds with g | g
        · refine ⟨?_, hyn _ g.2⟩
          rcases he with e | e
          · rw [e]; exact hy
          · exact absurd e (hcn _ g.2)
        · refine ⟨hyn _ g.1, ?_⟩
          rcases he with e | e
          · exact absurd e (hcn _ g.1)
          · rw [e]; exact hy
      rw [yr, yw, if_neg hyS, if_neg hyS, if_neg hys.1, if_neg hys.2]; simp
    · rw [sp.rd a, List.mem_append] at hb
      rcases hb with h1 | h1
      · left
        split at h1
        · simp at h1
        · exact (List.mem_filter.1 h1).1
      · right
        split at h1
        · rename_i e; simp only [List.mem_singleton] at h1; exact ⟨e, h1⟩
        · simp at h1
  have chk : ∀ (v : World) (con : Nat), (v.obj c).kind = .client → LStep v (v.checkState env c con) :=
    fun v con hk => checkState_lstep v env c con hk
  have back : ∀ (v : World) (con : Nat) (pre : List Nat), Setup (w.newClient c q) v c pre → con ∈ q.consoles →
      CK c v ((v.linkObjs env con c).checkState env c con) ∧
      ∀ a b, b ∈ (((v.linkObjs env con c).checkState env c con).obj a).readers →
        b ∈ (v.obj a).readers ∨ (a = con ∧ b = c) := by
    intro v con pre s hcon
    have hcc := hcons' con hcon
    have ok : LinkOk v con c := by
      refine ⟨Or.inr ⟨by rw [s.kind]; exact hcc.2, by rw [s.kind, hk0]; rfl⟩, ?_, by rw [s.live]; exact ⟨hcc.1, hcl⟩⟩
      intro hm
      have := (s.inv.l.sym con c).1 hm
      rw [s.wr] at this; simp at this
    have sp := linkObjs_spec s.inv.l env ok
    obtain ⟨l1, l2⟩ := lk s.inv.l ok (Or.inr rfl) (by rw [s.kind]; exact hk0)
    have l := chk (v.linkObjs env con c) con (by rw [sp.pstep.kind, s.kind]; exact hk0)
    exact ⟨l1.trans (l.ck c), fun a b hb => l2 a b (by rw [← (l.loc a).rd]; exact hb)⟩
  have forth : ∀ (v : World) (con : Nat) (pre : List Nat), Setup (w.newClient c q) v c pre → con ∈ q.consoles →
      con ∉ pre → Setup (w.newClient c q) (v.linkObjs env c con) c (pre ++ [con]) ∧
      CK c v (v.linkObjs env c con) ∧
      ∀ a b, b ∈ ((v.linkObjs env c con).obj a).readers → b ∈ (v.obj a).readers ∨ (a = c ∧ b = con) := by
    intro v con pre s hcon hn
    obtain ⟨okl, s1⟩ := s.link env hk0 (hcons' con hcon).2 ⟨hcl, (hcons' con hcon).1⟩ hn
    exact ⟨s1, lk s.inv.l okl (Or.inl rfl) (by rw [s.kind]; exact hk0)⟩
  have fold : ∀ (l : List Nat) (v : World) (pre : List Nat), Setup (w.newClient c q) v c pre →
      (pre ++ l).Nodup → (∀ x ∈ l, x ∈ q.consoles) →
      CK c v (l.foldl (fun w con => (w.linkObjs env c con).checkState env c con) v) ∧
      ∀ a b, b ∈ ((l.foldl (fun w con => (w.linkObjs env c con).checkState env c con) v).obj a).readers →
        b ∈ (v.obj a).readers ∨ (a = c ∧ b ∈ l) := by
    intro l
    induction l with
    | nil => intro v pre _ _ _; exact ⟨.refl _ _, fun _ _ h => Or.inl h⟩
    | cons x l ih =>
      intro v pre s hnd hl
      have hn : x ∉ pre := by
        intro hp
        rw [List.nodup_append] at hnd
        exact hnd.2.2 x hp x (by simp) rfl
      obtain ⟨s1, k1, g1⟩ := forth v x pre s (hl x (by simp)) hn
      have ll := chk (v.linkObjs env c x) x (by rw [s1.kind]; exact hk0)
      obtain ⟨k2, g2⟩ := ih _ _ (s1.lstep ll) (by simpa using hnd) (fun y hy => hl y (by simp [hy]))
      rw [List.foldl_cons]
      refine ⟨k1.trans ((ll.ck c).trans k2), fun a b hb => ?_⟩
      rcases g2 a b hb with g | g
      · rw [(ll.loc a).rd] at g
        rcases g1 a b g with g' | g'
        · exact Or.inl g'
        · exact Or.inr ⟨g'.1, by simp [g'.2]⟩
      · exact Or.inr ⟨g.1, by simp [g.2]⟩
  unfold World.grant
  simp only
  split
  · rename_i con t _ hcs
    obtain ⟨k, g⟩ := back _ con [] s0 (by simp [hcs])
    refine ⟨c0.trans k, fun a b hb => ?_⟩
    rcases g a b hb with g' | g'
    · exact Or.inl (n0 a b g')
    · exact Or.inr (Or.inr ⟨g'.2, by rw [g'.1, hcs]; simp⟩)
  · rename_i con hcm hcs
    have hm : con ∈ q.consoles := by simp [hcs]
    obtain ⟨s1, k1, g1⟩ := forth _ con [] s0 hm (by simp)
    obtain ⟨k, g⟩ := back _ con _ s1 hm
    refine ⟨c0.trans (k1.trans k), fun a b hb => ?_⟩
    rcases g a b hb with g' | g'
    · rcases g1 a b g' with g'' | g''
      · exact Or.inl (n0 a b g'')
      · exact Or.inr (Or.inl ⟨g''.1, by rw [g''.2]; exact hm, hcm⟩)
    · exact Or.inr (Or.inr ⟨g'.2, by rw [g'.1]; exact hm⟩)
  · rename_i hcm _
    obtain ⟨k, g⟩ := fold q.consoles _ [] s0 (by simpa using hnd) (fun _ h => h)
    refine ⟨c0.trans k, fun a b hb => ?_⟩
    rcases g a b hb with g' | g'
    · exact Or.inl (n0 a b g')
    · exact Or.inr (Or.inl ⟨g'.1, g'.2, hcm⟩)
  · exact ⟨c0, fun a b hb => Or.inl (n0 a b hb)⟩

theorem connUp_links {w : World} (h : WInv w) (env : Env) (i : Nat) :
    CK i w (w.connUp env i) ∧ NG w (w.connUp env i) := by
  unfold World.connUp
  simp only
  split
  · exact ⟨.refl _ _, .refl _⟩
  rename_i hk
  have hk : (w.obj i).kind.isConsole = true := by simpa using hk
  split
  · exact ⟨.refl _ _, .refl _⟩
  have s1 : WStep w (w.mod i (fun o => { o with fd := true, pin := true, conn := .up, eof := false })) := by
    apply WStep.mod
    exact ⟨rfl, rfl, rfl, rfl, fun hh => absurd hh (not_client_of_console hk), fun ho =>
      ⟨ho.cap, ho.susp, fun hf => by simp at hf⟩⟩
  have h1 := h.wstep s1
  have s2 : LStep (w.mod i (fun o => { o with fd := true, pin := true, conn := .up, eof := false }))
      (if (w.obj i).kind = .test then (w.mod i (fun o => { o with fd := true, pin := true, conn := .up, eof := false }))
      else (w.mod i (fun o => { o with fd := true, pin := true, conn := .up, eof := false })).notify env i (.connected i)) := by
    split
    · exact .refl _
    · exact (notify_step h1.l env i _ (by rw [(s1.loc i).kind]; exact hk)).lstep
  split
  · have s3 := s2.trans (.mod _ i (·.write telHello false) (.write _ _ _))
    exact ⟨(CK.mod _ _ _).trans (s3.ck i), s1.sl.ng.trans s3.sl.ng⟩
  · exact ⟨(CK.mod _ _ _).trans (s2.ck i), s1.sl.ng.trans s2.sl.ng⟩

/-- Links gained in a step. -/
def Gained (w : World) (s : Step) (a b : Nat) : Prop :=
  (∃ c k q, s = .grant c k ∧ w.wait[k]? = some q ∧
    ((a = c ∧ b ∈ q.consoles ∧ q.cmd = .connect) ∨ (b = c ∧ a ∈ q.consoles))) ∨
  (∃ up d wr, s = .poll a up (some (.data d)) wr ∧ (w.obj a).kind = .client ∧ (w.obj a).writers = [b] ∧
    (cmdsOf (w.obj a) d).any isSwitch = true)

/-- The object a step is about: only its own links can change without it being marked end-of-file. -/
theorem step_links {env : Env} {w w' : World} (h : DInv w) (s : Step) (hs : w.step env s = some w') :
    (∀ x, s.target ≠ some x → (w.obj x).kind = .client → CKo (w.obj x) (w'.obj x)) ∧
    ∀ a b, b ∈ (w'.obj a).readers → b ∈ (w.obj a).readers ∨ Gained w s a b := by
  have ok : ∀ i, CK i w w' → NG w w' → (s.target = some i ∨ ∀ x, (w.obj x).kind = .client → x ≠ i) →
      (∀ x, s.target ≠ some x → (w.obj x).kind = .client → CKo (w.obj x) (w'.obj x)) ∧
      ∀ a b, b ∈ (w'.obj a).readers → b ∈ (w.obj a).readers ∨ Gained w s a b := by
    intro i h1 h2 h3
    refine ⟨fun x hx hk => h1 x ?_ hk, fun a b hb => Or.inl (h2 a b hb)⟩
    rcases h3 with g | g
    · rintro rfl; exact hx g
    · exact g x hk
  have triv : w' = w → (∀ x, s.target ≠ some x → (w.obj x).kind = .client → CKo (w.obj x) (w'.obj x)) ∧
      ∀ a b, b ∈ (w'.obj a).readers → b ∈ (w.obj a).readers ∨ Gained w s a b := by
    rintro rfl; exact ⟨fun _ _ _ => .refl _, fun _ _ h => Or.inl h⟩
  have same : (∀ j, (w'.obj j).kind = (w.obj j).kind ∧ (w'.obj j).readers = (w.obj j).readers ∧ (w'.obj j).writers = (w.obj j).writers ∧
      (s.target ≠ some j → (w.obj j).kind = .client → (w'.obj j).eof = (w.obj j).eof)) →
      (∀ x, s.target ≠ some x → (w.obj x).kind = .client → CKo (w.obj x) (w'.obj x)) ∧
      ∀ a b, b ∈ (w'.obj a).readers → b ∈ (w.obj a).readers ∨ Gained w s a b := by
    intro hh
    exact ⟨fun x hx hk => ⟨(hh x).1, fun e => by rw [(hh x).2.2.2 hx hk]; exact e, fun _ => ⟨(hh x).2.1, (hh x).2.2.1⟩⟩,
      fun a b hb => Or.inl (by rw [(hh a).2.1] at hb; exact hb)⟩
  have modk : ∀ (i : Nat) (f : Obj → Obj), w' = w.mod i f → (f (w.obj i)).kind = (w.obj i).kind →
      (f (w.obj i)).readers = (w.obj i).readers → (f (w.obj i)).writers = (w.obj i).writers → (w.obj i).kind ≠ .client →
      (∀ x, s.target ≠ some x → (w.obj x).kind = .client → CKo (w.obj x) (w'.obj x)) ∧
      ∀ a b, b ∈ (w'.obj a).readers → b ∈ (w.obj a).readers ∨ Gained w s a b := by
    rintro i f rfl e1 e2 e3 e4
    apply same
    intro j
    rw [World.mod_obj]
    split
    · rename_i e; subst e; exact ⟨e1, e2, e3, fun _ hk => absurd hk e4⟩
    · exact ⟨rfl, rfl, rfl, fun _ _ => rfl⟩
  cases s with
  | check q =>
    simp only [World.step, Option.some.injEq] at hs
    split at hs
    · subst hs; exact same (fun j => ⟨rfl, rfl, rfl, fun _ _ => rfl⟩)
    · exact triv hs.symm
  | grant c k =>
    simp only [World.step, Option.some.injEq] at hs
    split at hs
    · rename_i q hq
      split at hs
      · exact triv hs.symm
      · rename_i hc
        subst hs
        have hw : q ∈ w.wait := List.mem_of_getElem? hq
        have hwk := h.wait q hw
        have := grant_links (w := ({ w with wait := w.wait.eraseIdx k } : World)) (h.unwait (w.wait.eraseIdx k) (fun q hq => List.mem_of_mem_eraseIdx hq)).inv env c q hc hwk.2
        refine ⟨fun x hx hk => this.1 x ?_ hk, fun a b hb => ?_⟩
        · rintro rfl; exact hx rfl
        · rcases this.2 a b hb with g | g
          · exact Or.inl g
          · exact Or.inr (Or.inl ⟨c, k, q, rfl, hq, g⟩)
    · exact triv hs.symm
  | poll i up rd wr =>
    simp only [World.step] at hs
    split at hs
    · simp only [Option.some.injEq] at hs; exact triv hs.symm
    rename_i hp
    simp only [Option.map_eq_some_iff] at hs
    obtain ⟨w1, hr, hw1⟩ := hs
    have h1 : (WInv w1) ∧ CK i w w1 ∧ ∀ a b, b ∈ (w1.obj a).readers → b ∈ (w.obj a).readers ∨
        Gained w (.poll i up rd wr) a b := by
      cases rd with
      | none => simp only [Option.some.injEq] at hr; subst hr; exact ⟨h.inv, .refl _ _, fun _ _ h => Or.inl h⟩
      | some r =>
        obtain ⟨k1, k2⟩ := read_links h.inv env up i r hr
        refine ⟨(read_inv h.inv env up i r hr).1, k1, fun a b hb => ?_⟩
        rcases k2 a b hb with g | ⟨rfl, g1, g2, d, rfl, g3⟩
        · exact Or.inl g
        · exact Or.inr (Or.inr ⟨up, d, wr, rfl, g1, g2, g3⟩)
    have h2 : CK i w1 w' ∧ NG w1 w' := by
      subst hw1
      split
      · exact ⟨.refl _ _, .refl _⟩
      · split
        · exact ⟨.refl _ _, .refl _⟩
        · exact flush_links h1.1 env up i _
    refine ⟨fun x hx hk => (h1.2.1.trans h2.1) x (by rintro rfl; exact hx rfl) hk, fun a b hb => ?_⟩
    exact h1.2.2 a b (h2.2 a b hb)
  | connUp i =>
    simp only [World.step, Option.some.injEq] at hs
    split at hs
    · subst hs
      have := connUp_links h.inv env i
      exact ok i this.1 this.2 (Or.inl rfl)
    · exact triv hs.symm
  | connPend i =>
    simp only [World.step, Option.some.injEq] at hs
    split at hs
    · rename_i hh
      exact modk i _ hs.symm rfl rfl rfl (by rw [hh.2.1]; simp)
    · exact triv hs.symm
  | connDown i =>
    simp only [World.step, Option.some.injEq] at hs
    split at hs
    · rename_i hh
      exact modk i _ hs.symm rfl rfl rfl (by rw [hh.1]; simp)
    · exact triv hs.symm
  | connFail i =>
    simp only [World.step, Option.some.injEq] at hs
    split at hs
    · rename_i hk
      subst hs
      have s := (notify_step h.inv.l env i (.connFailed i) (by rw [hk.2.1]; rfl)).lstep
      exact ok i (s.ck i) s.sl.ng (Or.inl rfl)
    · exact triv hs.symm
  | resetTimeout con =>
    simp only [World.step, Option.some.injEq] at hs
    split at hs
    · have e : ∀ j, w'.obj j = (w.mod con (fun o => { o with resetPid := none, resetTimer := false })).obj j := by
        intro j; subst hs
        split
        · rfl
        · split <;> rfl
      apply same
      intro j; rw [e j, World.mod_obj]
      split <;> exact ⟨rfl, rfl, rfl, fun _ _ => rfl⟩
    · exact triv hs.symm
  | childExit con pid =>
    simp only [World.step, Option.some.injEq] at hs
    subst hs
    exact same (fun j => ⟨rfl, rfl, rfl, fun _ _ => rfl⟩)
  | logOpen i okk =>
    simp only [World.step, Option.some.injEq] at hs
    split at hs
    · rename_i hk
      refine modk i _ hs.symm ?_ ?_ ?_ (by rw [hk]; simp)
      all_goals
        split
        · first
            | exact (SameFlags.write _ _ _).kind
            | exact (OLoc.write _ _ _).rd
            | exact (OLoc.write _ _ _).wr
        · rfl
    · exact triv hs.symm
  | logStamp i =>
    simp only [World.step, Option.some.injEq] at hs
    split at hs
    · rename_i hk
      refine modk i _ hs.symm (OLoc.write _ _ _).kind (OLoc.write _ _ _).rd (OLoc.write _ _ _).wr (by rw [hk]; simp)
    · exact triv hs.symm

end Conman
