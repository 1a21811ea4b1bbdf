import Verif.Model.World
import Verif.Lemma.Ring

namespace Conman

/-! ### Changing one object -/

theorem World.mod_obj (w : World) (i : Nat) (f : Obj → Obj) (j : Nat) :
    (w.mod i f).obj j = if j = i then f (w.obj j) else w.obj j := rfl

@[simp] theorem World.mod_self (w : World) (i : Nat) (f : Obj → Obj) :
    (w.mod i f).obj i = f (w.obj i) := by simp [World.mod_obj]

theorem World.mod_ne (w : World) {i j : Nat} (f : Obj → Obj) (h : j ≠ i) :
    (w.mod i f).obj j = w.obj j := by simp [World.mod_obj, h]

/-- Everything but the objects. -/
def World.rest (w : World) : List Nat × Nat × List (Nat × Nat) × List Fx × List Req :=
  (w.live, w.tick, w.running, w.fx, w.wait)

@[simp] theorem World.mod_rest (w : World) (i : Nat) (f : Obj → Obj) : (w.mod i f).rest = w.rest := rfl
@[simp] theorem World.mod_live (w : World) (i : Nat) (f : Obj → Obj) : (w.mod i f).live = w.live := rfl
@[simp] theorem World.mod_tick (w : World) (i : Nat) (f : Obj → Obj) : (w.mod i f).tick = w.tick := rfl
@[simp] theorem World.mod_running (w : World) (i : Nat) (f : Obj → Obj) : (w.mod i f).running = w.running := rfl
@[simp] theorem World.mod_wait (w : World) (i : Nat) (f : Obj → Obj) : (w.mod i f).wait = w.wait := rfl
@[simp] theorem World.mod_fx (w : World) (i : Nat) (f : Obj → Obj) : (w.mod i f).fx = w.fx := rfl

/-! ### Writes -/

theorem Obj.write_cases (o : Obj) (d : List UInt8) (b : Bool) :
    o.write d b = o ∨ (o.eof = false ∧ o.write d b =
      { o with pend := enq o.pend d, hist := o.hist ++ (enters d).map some, pout := o.pout || (o.fd && !(o.kind = .client && o.suspend)), line := if b ∧ o.kind = .logfile then .init else o.line }) := by
  unfold Obj.write
  split
  · exact Or.inl rfl
  split
  · exact Or.inl rfl
  split
  · exact Or.inl rfl
  · rename_i h2 _
    exact Or.inr ⟨by simpa using h2, rfl⟩

@[simp] theorem Obj.write_kind (o : Obj) (d : List UInt8) (b : Bool) : (o.write d b).kind = o.kind := by
  rcases o.write_cases d b with h | ⟨_, h⟩ <;> rw [h]
@[simp] theorem Obj.write_readers (o : Obj) (d : List UInt8) (b : Bool) : (o.write d b).readers = o.readers := by
  rcases o.write_cases d b with h | ⟨_, h⟩ <;> rw [h]
@[simp] theorem Obj.write_writers (o : Obj) (d : List UInt8) (b : Bool) : (o.write d b).writers = o.writers := by
  rcases o.write_cases d b with h | ⟨_, h⟩ <;> rw [h]
@[simp] theorem Obj.write_eof (o : Obj) (d : List UInt8) (b : Bool) : (o.write d b).eof = o.eof := by
  rcases o.write_cases d b with h | ⟨_, h⟩ <;> rw [h]
@[simp] theorem Obj.write_quiet (o : Obj) (d : List UInt8) (b : Bool) : (o.write d b).quiet = o.quiet := by
  rcases o.write_cases d b with h | ⟨_, h⟩ <;> rw [h]
@[simp] theorem Obj.write_fd (o : Obj) (d : List UInt8) (b : Bool) : (o.write d b).fd = o.fd := by
  rcases o.write_cases d b with h | ⟨_, h⟩ <;> rw [h]
@[simp] theorem Obj.write_gen (o : Obj) (d : List UInt8) (b : Bool) : (o.write d b).gen = o.gen := by
  rcases o.write_cases d b with h | ⟨_, h⟩ <;> rw [h]
@[simp] theorem Obj.write_conn (o : Obj) (d : List UInt8) (b : Bool) : (o.write d b).conn = o.conn := by
  rcases o.write_cases d b with h | ⟨_, h⟩ <;> rw [h]

theorem Obj.write_of_eof (o : Obj) (d : List UInt8) (b : Bool) (h : o.eof = true) : o.write d b = o := by
  rcases o.write_cases d b with h1 | ⟨h1, _⟩
  · exact h1
  · simp [h] at h1

theorem Obj.write_of_quiet (o : Obj) (d : List UInt8) (hc : o.kind = .client) (hq : o.quiet = true) :
    o.write d true = o := by
  unfold Obj.write
  simp [hc, hq]

theorem Obj.write_nil (o : Obj) (b : Bool) : o.write [] b = o := by simp [Obj.write]

/-! ### What may happen to an object while others act -/

/-- Informational messages (not to consoles), link changes, end-of-file for a
client. -/
inductive Passive (env : Env) : Obj → Obj → Prop
  | refl (o : Obj) : Passive env o o
  | trans {a b c : Obj} : Passive env a b → Passive env b c → Passive env a c
  | info (o : Obj) (n : Note) (t : Nat) (h : o.kind.isConsole = false) : Passive env o (o.write (env.txt n t) true)
  | links (o : Obj) (r s : List Nat) : Passive env o { o with readers := r, writers := s }
  | orphan (o : Obj) (h : o.kind = .client) : Passive env o { o with eof := true }

theorem Passive.kind {o o' : Obj} (h : Passive env o o') : o'.kind = o.kind := by
  induction h with
  | refl => rfl
  | trans _ _ h1 h2 => rw [h2, h1]
  | info => simp
  | links => rfl
  | orphan => rfl

/-- Informational messages only. -/
inductive Noted (env : Env) : Obj → Obj → Prop
  | refl (o : Obj) : Noted env o o
  | trans {a b c : Obj} : Noted env a b → Noted env b c → Noted env a c
  | info (o : Obj) (n : Note) (t : Nat) (h : o.kind.isConsole = false) : Noted env o (o.write (env.txt n t) true)

theorem Noted.passive {o o' : Obj} (h : Noted env o o') : Passive env o o' := by
  induction h with
  | refl => exact .refl _
  | trans _ _ h1 h2 => exact .trans h1 h2
  | info _ _ _ h => exact .info _ _ _ h

theorem Noted.core {o o' : Obj} (h : Noted env o o') :
    o'.kind = o.kind ∧ o'.readers = o.readers ∧ o'.writers = o.writers ∧ o'.eof = o.eof := by
  induction h with
  | refl => simp
  | trans _ _ h1 h2 => simp [h1, h2]
  | info => simp

/-! ### The link invariant -/

structure LInv (w : World) : Prop where
  sym : ∀ a b, b ∈ (w.obj a).readers ↔ a ∈ (w.obj b).writers
  kinds : ∀ a b, b ∈ (w.obj a).readers →
    ((w.obj a).kind = .client ∧ (w.obj b).kind.isConsole = true) ∨
    ((w.obj a).kind.isConsole = true ∧ (w.obj b).kind.isConsole = false)
  ndR : ∀ a, (w.obj a).readers.Nodup
  ndW : ∀ a, (w.obj a).writers.Nodup
  live : ∀ a b, b ∈ (w.obj a).readers → a ∈ w.live ∧ b ∈ w.live

/-- Same kinds, links and list of objects. -/
def SL (w w' : World) : Prop :=
  (∀ i, (w'.obj i).kind = (w.obj i).kind ∧ (w'.obj i).readers = (w.obj i).readers ∧
    (w'.obj i).writers = (w.obj i).writers) ∧ w'.live = w.live

theorem LInv.same {w w' : World} (h : LInv w) (hs : SL w w') : LInv w' := by
  obtain ⟨h1, h2⟩ := hs
  constructor
  · intro a b; rw [(h1 a).2.1, (h1 b).2.2]; exact h.sym a b
  · intro a b; rw [(h1 a).2.1, (h1 a).1, (h1 b).1]; exact h.kinds a b
  · intro a; rw [(h1 a).2.1]; exact h.ndR a
  · intro a; rw [(h1 a).2.2]; exact h.ndW a
  · intro a b; rw [(h1 a).2.1, h2]; exact h.live a b

theorem LInv.kindW {w : World} (h : LInv w) {a b : Nat} (hb : a ∈ (w.obj b).writers) :
    ((w.obj a).kind = .client ∧ (w.obj b).kind.isConsole = true) ∨
    ((w.obj a).kind.isConsole = true ∧ (w.obj b).kind.isConsole = false) :=
  h.kinds a b ((h.sym a b).2 hb)

/-- A list of objects all get notes; nothing else changes. -/
structure NoteStep (env : Env) (w w' : World) (l : List Nat) : Prop where
  rest : w'.rest = w.rest
  touched : ∀ j, Noted env (w.obj j) (w'.obj j)
  other : ∀ j, j ∉ l → w'.obj j = w.obj j

theorem NoteStep.SL {w w' : World} {l : List Nat} (h : NoteStep env w w' l) : SL w w' :=
  ⟨fun i => ⟨(h.touched i).core.1, (h.touched i).core.2.1, (h.touched i).core.2.2.1⟩, by
    have := h.rest; simp only [World.rest, Prod.mk.injEq] at this; exact this.1⟩

theorem NoteStep.refl (w : World) (l : List Nat) : NoteStep env w w l := ⟨rfl, fun _ => .refl _, fun _ _ => rfl⟩

theorem NoteStep.trans {w w' w'' : World} {l l' : List Nat} (h : NoteStep env w w' l) (h' : NoteStep env w' w'' l') :
    NoteStep env w w'' (l ++ l') :=
  ⟨by rw [h'.rest, h.rest], fun j => (h.touched j).trans (h'.touched j), fun j hj => by
    rw [List.mem_append, not_or] at hj; rw [h'.other j hj.2, h.other j hj.1]⟩

theorem NoteStep.mono {w w' : World} {l l' : List Nat} (h : NoteStep env w w' l) (hl : ∀ x ∈ l, x ∈ l') :
    NoteStep env w w' l' := ⟨h.rest, h.touched, fun j hj => h.other j (fun hh => hj (hl j hh))⟩

theorem note_step (w : World) (env : Env) (n : Note) (i : Nat) (hk : (w.obj i).kind.isConsole = false) :
    NoteStep env w (w.note env n i) [i] := by
  refine ⟨rfl, fun j => ?_, fun j hj => ?_⟩
  · by_cases hj : j = i
    · subst hj; simp only [World.note, World.mod_self]; exact .info _ _ _ hk
    · simp only [World.note, World.mod_ne w _ hj]; exact .refl _
  · simp only [List.mem_singleton] at hj; simp only [World.note, World.mod_ne w _ hj]

theorem notes_step (env : Env) (n : Note) (l : List Nat) (w : World)
    (hk : ∀ i ∈ l, (w.obj i).kind.isConsole = false) :
    NoteStep env w (l.foldl (fun w i => w.note env n i) w) l := by
  induction l generalizing w with
  | nil => exact .refl _ _
  | cons a l ih =>
    simp only [List.foldl_cons]
    have h1 := note_step w env n a (hk a (by simp))
    have h2 := ih (w.note env n a) (fun i hi => by
      rw [(h1.SL.1 i).1]; exact hk i (by simp [hi]))
    exact h1.trans h2

/-- Notes for one object, from a list of senders. -/
theorem notes_to_step (env : Env) (f : Nat → Note) (l : List Nat) (w : World) (i : Nat)
    (hk : (w.obj i).kind.isConsole = false) :
    NoteStep env w (l.foldl (fun w x => w.note env (f x) i) w) [i] := by
  induction l generalizing w with
  | nil => exact .refl _ _
  | cons a l ih =>
    simp only [List.foldl_cons]
    have h1 := note_step w env (f a) i hk
    have h2 := ih (w.note env (f a) i) (by rw [(h1.SL.1 i).1]; exact hk)
    exact (h1.trans h2).mono (by simp)

theorem notify_step {w : World} (h : LInv w) (env : Env) (con : Nat) (n : Note)
    (hc : (w.obj con).kind.isConsole = true) :
    NoteStep env w (w.notify env con n) ((w.obj con).readers ++ (w.obj con).writers) := by
  have hr : ∀ i ∈ (w.obj con).readers, (w.obj i).kind.isConsole = false := by
    intro i hi
    rcases h.kinds con i hi with h1 | h1
    · rw [h1.1] at hc; simp [OKind.isConsole] at hc
    · exact h1.2
  have hw : ∀ i ∈ (w.obj con).writers, (w.obj i).kind.isConsole = false := by
    intro i hi
    rcases h.kindW hi with h1 | h1
    · rw [h1.1]; rfl
    · rw [h1.2] at hc; simp at hc
  unfold World.notify
  have h1 := notes_step env n (w.obj con).readers w hr
  refine (h1.trans (notes_step env n _ _ ?_)).mono ?_
  · intro i hi
    rw [(h1.SL.1 i).1]
    exact hw i ((List.mem_filter.1 hi).1)
  · intro x hx
    simp only [List.mem_append] at hx ⊢
    rcases hx with hx | hx
    · exact Or.inl hx
    · exact Or.inr ((List.mem_filter.1 hx).1)

/-- Objects change only passively, nothing else changes. -/
structure PStep (env : Env) (w w' : World) : Prop where
  rest : w'.rest = w.rest
  touched : ∀ j, Passive env (w.obj j) (w'.obj j)

theorem PStep.refl (w : World) : PStep env w w := ⟨rfl, fun _ => .refl _⟩
theorem PStep.trans {w w' w'' : World} (h : PStep env w w') (h' : PStep env w' w'') : PStep env w w'' :=
  ⟨by rw [h'.rest, h.rest], fun j => (h.touched j).trans (h'.touched j)⟩
theorem NoteStep.pstep {w w' : World} {l : List Nat} (h : NoteStep env w w' l) : PStep env w w' :=
  ⟨h.rest, fun j => (h.touched j).passive⟩
theorem PStep.kind {w w' : World} (h : PStep env w w') (j : Nat) : (w'.obj j).kind = (w.obj j).kind :=
  (h.touched j).kind
theorem PStep.live {w w' : World} (h : PStep env w w') : w'.live = w.live := by
  have := h.rest; simp only [World.rest, Prod.mk.injEq] at this; exact this.1

theorem cut_obj (w : World) (src dst j : Nat) :
    (w.cut src dst).obj j = { w.obj j with
      readers := if j = src then (w.obj j).readers.filter (· ≠ dst) else (w.obj j).readers
      writers := if j = dst then (w.obj j).writers.filter (· ≠ src) else (w.obj j).writers } := by
  unfold World.cut
  by_cases h1 : j = dst
  · subst h1
    simp only [World.mod_self, World.mod_obj]
    by_cases h2 : j = src
    · subst h2; simp
    · simp [h2]
  · rw [World.mod_ne _ _ h1, World.mod_obj]
    by_cases h2 : j = src
    · subst h2; simp [h1]
    · simp [h1, h2]

theorem cut_mem_readers (w : World) (src dst a b : Nat) :
    b ∈ ((w.cut src dst).obj a).readers ↔ b ∈ (w.obj a).readers ∧ ¬ (a = src ∧ b = dst) := by
  rw [cut_obj]
  by_cases h : a = src
  · simp [h]
  · simp [h]

theorem cut_mem_writers (w : World) (src dst a b : Nat) :
    a ∈ ((w.cut src dst).obj b).writers ↔ a ∈ (w.obj b).writers ∧ ¬ (a = src ∧ b = dst) := by
  rw [cut_obj]
  by_cases h : b = dst
  · simp [h]
  · simp [h]

theorem cut_kind (w : World) (src dst j : Nat) : ((w.cut src dst).obj j).kind = (w.obj j).kind := by
  rw [cut_obj]

theorem LInv.cut {w : World} (h : LInv w) (src dst : Nat) : LInv (w.cut src dst) := by
  constructor
  · intro a b; rw [cut_mem_readers, cut_mem_writers, h.sym]
  · intro a b hb; rw [cut_mem_readers] at hb; rw [cut_kind, cut_kind]; exact h.kinds a b hb.1
  · intro a; rw [cut_obj]; simp only; split
    · exact (h.ndR a).filter _
    · exact h.ndR a
  · intro a; rw [cut_obj]; simp only; split
    · exact (h.ndW a).filter _
    · exact h.ndW a
  · intro a b hb; rw [cut_mem_readers] at hb; exact h.live a b hb.1

theorem cut_pstep (w : World) (src dst : Nat) : PStep env w (w.cut src dst) :=
  ⟨rfl, fun j => by rw [cut_obj]; exact .links _ _ _⟩

structure UnlinkSpec (env : Env) (w w' : World) (src dst : Nat) : Prop where
  inv : LInv w'
  pstep : PStep env w w'
  rd : ∀ j, (w'.obj j).readers = if j = src then (w.obj j).readers.filter (· ≠ dst) else (w.obj j).readers
  wr : ∀ j, (w'.obj j).writers = if j = dst then (w.obj j).writers.filter (· ≠ src) else (w.obj j).writers
  eofSrc : (w'.obj src).orphan = true → (w'.obj src).eof = true
  eofDst : (w.obj src).kind ≠ .client → (w'.obj dst).orphan = true → (w'.obj dst).eof = true
  eofOld : ∀ j, (w.obj j).eof = true → (w'.obj j).eof = true
  eofNew : ∀ j, (w'.obj j).eof = true → (w.obj j).eof = true ∨
    ((w'.obj j).orphan = true ∧ (j = src ∨ j = dst))

theorem unlinkObjs_spec {w : World} (h : LInv w) (env : Env) (src dst : Nat) :
    UnlinkSpec env w (w.unlinkObjs env src dst) src dst := by
  have hcut := h.cut src dst
  -- the notification
  obtain ⟨w2, hw2, hs2, hp2, hn2⟩ : ∃ w2, (w2 = if (w.obj dst).writers.count src > 0 ∧
      ((w.cut src dst).obj src).kind = .client ∧ ((w.cut src dst).obj dst).kind.isConsole then
      (w.cut src dst).notify env dst (.departed src dst) else w.cut src dst) ∧
      SL (w.cut src dst) w2 ∧ PStep env (w.cut src dst) w2 ∧
      (∀ j, (w2.obj j).eof = (w.obj j).eof) := by
    refine ⟨_, rfl, ?_⟩
    split
    · rename_i hc
      have := notify_step hcut env dst (.departed src dst) hc.2.2
      refine ⟨this.SL, this.pstep, fun j => ?_⟩
      rw [(this.touched j).core.2.2.2, cut_obj]
    · refine ⟨⟨fun i => ⟨rfl, rfl, rfl⟩, rfl⟩, .refl _, fun j => by rw [cut_obj]⟩
  have hrd : ∀ j, (w2.obj j).readers = if j = src then (w.obj j).readers.filter (· ≠ dst) else (w.obj j).readers := by
    intro j; rw [(hs2.1 j).2.1, cut_obj]
  have hwr : ∀ j, (w2.obj j).writers = if j = dst then (w.obj j).writers.filter (· ≠ src) else (w.obj j).writers := by
    intro j; rw [(hs2.1 j).2.2, cut_obj]
  have hkd : ∀ j, (w2.obj j).kind = (w.obj j).kind := by
    intro j; rw [(hs2.1 j).1, cut_kind]
  have hinv := hcut.same hs2
  have hp : PStep env w w2 := (cut_pstep w src dst).trans hp2
  have e : w.unlinkObjs env src dst = if (w2.obj src).orphan then w2.mod src (fun o => { o with eof := true })
      else if (w2.obj dst).orphan then w2.mod dst (fun o => { o with eof := true }) else w2 := by
    rw [hw2]; rfl
  -- the end-of-file mark
  have hmark : ∀ i, (w2.obj i).orphan = true → LInv (w2.mod i (fun o => { o with eof := true })) ∧
      PStep env w2 (w2.mod i (fun o => { o with eof := true })) ∧
      ∀ j, ((w2.mod i (fun o => { o with eof := true })).obj j).readers = (w2.obj j).readers ∧
        ((w2.mod i (fun o => { o with eof := true })).obj j).writers = (w2.obj j).writers ∧
        ((w2.mod i (fun o => { o with eof := true })).obj j).kind = (w2.obj j).kind := by
    intro i hi
    have hc : (w2.obj i).kind = .client := by
      simp only [Obj.orphan, Bool.and_eq_true, decide_eq_true_eq] at hi; exact hi.1.1
    have hsame : ∀ j, ((w2.mod i (fun o => { o with eof := true })).obj j).readers = (w2.obj j).readers ∧
        ((w2.mod i (fun o => { o with eof := true })).obj j).writers = (w2.obj j).writers ∧
        ((w2.mod i (fun o => { o with eof := true })).obj j).kind = (w2.obj j).kind := by
      intro j; rw [World.mod_obj]; split <;> simp
    refine ⟨hinv.same ⟨fun j => ⟨(hsame j).2.2, (hsame j).1, (hsame j).2.1⟩, rfl⟩, ⟨rfl, fun j => ?_⟩, hsame⟩
    rw [World.mod_obj]
    split
    · rename_i hj; subst hj; exact .orphan _ hc
    · exact .refl _
  rw [e]
  by_cases hso : (w2.obj src).orphan = true
  · rw [if_pos hso]
    obtain ⟨h1, h2, h3⟩ := hmark src hso
    refine ⟨h1, hp.trans h2, fun j => by rw [(h3 j).1, hrd], fun j => by rw [(h3 j).2.1, hwr],
      fun _ => by simp, ?_, ?_, ?_⟩
    · intro hk
      simp only [Obj.orphan, Bool.and_eq_true, decide_eq_true_eq] at hso
      exact absurd (hkd src ▸ hso.1.1) hk
    · intro j hj; rw [World.mod_obj]; split
      · rfl
      · rw [hn2]; exact hj
    · intro j hj
      rw [World.mod_obj] at hj
      split at hj
      · rename_i hj'; subst hj'
        right
        exact ⟨by simpa [Obj.orphan] using hso, Or.inl rfl⟩
      · left; rw [hn2] at hj; exact hj
  · rw [if_neg hso]
    by_cases hdo : (w2.obj dst).orphan = true
    · rw [if_pos hdo]
      obtain ⟨h1, h2, h3⟩ := hmark dst hdo
      refine ⟨h1, hp.trans h2, fun j => by rw [(h3 j).1, hrd], fun j => by rw [(h3 j).2.1, hwr], ?_,
        fun _ _ => by simp, ?_, ?_⟩
      · intro ho
        rw [World.mod_obj]
        split
        · rfl
        · rename_i hne
          rw [World.mod_ne _ _ hne] at ho
          exact absurd ho hso
      · intro j hj; rw [World.mod_obj]; split
        · rfl
        · rw [hn2]; exact hj
      · intro j hj
        rw [World.mod_obj] at hj
        split at hj
        · rename_i hj'; subst hj'
          right
          exact ⟨by simpa [Obj.orphan] using hdo, Or.inr rfl⟩
        · left; rw [hn2] at hj; exact hj
    · rw [if_neg hdo]
      exact ⟨hinv, hp, hrd, hwr, fun ho => absurd ho hso, fun _ ho => absurd ho hdo,
        fun j hj => by rw [hn2]; exact hj, fun j hj => Or.inl (by rw [← hn2]; exact hj)⟩

theorem Obj.orphan_iff (o : Obj) : o.orphan = true ↔ o.kind = .client ∧ o.readers = [] ∧ o.writers = [] := by
  simp [Obj.orphan, and_assoc]

theorem LInv.irrefl {w : World} (h : LInv w) (i : Nat) : i ∉ (w.obj i).readers := by
  intro hi
  rcases h.kinds i i hi with h1 | h1
  · rw [h1.1] at h1; simp [OKind.isConsole] at h1
  · simp [h1.1] at h1

theorem filter_ne_of_not_mem {l : List Nat} {i : Nat} (h : i ∉ l) : l.filter (· ≠ i) = l := by
  apply List.filter_eq_self.2
  intro a ha
  simp only [ne_eq, decide_not, Bool.not_eq_eq_eq_not, Bool.not_true, decide_eq_false_iff_not]
  rintro rfl; exact h ha

structure IsoW (env : Env) (w w' : World) (i : Nat) : Prop where
  inv : LInv w'
  pstep : PStep env w w'
  rd : ∀ j, (w'.obj j).readers = (w.obj j).readers.filter (· ≠ i)
  wr : ∀ j, (w'.obj j).writers = if j = i then [] else (w.obj j).writers
  eofI : (w.obj i).kind = .client → (w.obj i).writers ≠ [] → (w'.obj i).orphan = true → (w'.obj i).eof = true
  eofOld : ∀ j, (w.obj j).eof = true → (w'.obj j).eof = true
  eofNew : ∀ j, (w'.obj j).eof = true → (w.obj j).eof = true ∨
    ((w'.obj j).orphan = true ∧ (j = i ∨ j ∈ (w.obj i).writers))

theorem unlinkWriters_nil {w : World} (env : Env) (i fuel : Nat) (hw : (w.obj i).writers = []) :
    w.unlinkWriters env i fuel = w := by
  cases fuel with
  | zero => rfl
  | succ n => simp [World.unlinkWriters, hw]

theorem isoW_nil {w : World} (h : LInv w) {i : Nat} (hw : (w.obj i).writers = []) : IsoW env w w i := by
  refine ⟨h, .refl _, ?_, ?_, fun _ hh => absurd hw hh, fun _ hj => hj, fun _ hj => Or.inl hj⟩
  · intro j
    rw [filter_ne_of_not_mem]
    intro hi
    have := (h.sym j i).1 hi
    simp [hw] at this
  · intro j
    split
    · rename_i hj; rw [hj, hw]
    · rfl

theorem unlinkWriters_spec (env : Env) (i fuel : Nat) : ∀ {w : World}, LInv w →
    (w.obj i).writers.length ≤ fuel → IsoW env w (w.unlinkWriters env i fuel) i := by
  induction fuel with
  | zero =>
    intro w h hf
    have hw : (w.obj i).writers = [] := List.length_eq_zero_iff.1 (by omega)
    exact isoW_nil h hw
  | succ n ih =>
    intro w h hf
    cases hw : (w.obj i).writers with
    | nil => rw [unlinkWriters_nil env i _ hw]; exact isoW_nil h hw
    | cons x t =>
      have hstep : w.unlinkWriters env i (n + 1) = (w.unlinkObjs env x i).unlinkWriters env i n := by
        simp [World.unlinkWriters, hw]
      have u := unlinkObjs_spec h env x i
      have hw1 : ((w.unlinkObjs env x i).obj i).writers = t.filter (· ≠ x) := by
        rw [u.wr i, if_pos rfl, hw]; simp
      have hlen : ((w.unlinkObjs env x i).obj i).writers.length ≤ n := by
        rw [hw1]
        have := List.length_filter_le (fun a => decide (a ≠ x)) t
        rw [hw] at hf; simp at hf; omega
      have r := ih u.inv hlen
      rw [hstep]
      refine ⟨r.inv, u.pstep.trans r.pstep, ?_, ?_, ?_, fun j hj => r.eofOld j (u.eofOld j hj), ?_⟩
      · intro j
        rw [r.rd j, u.rd j]
        split
        · rw [List.filter_filter]; simp
        · rfl
      · intro j
        rw [r.wr j]
        split
        · rfl
        · rename_i hj; rw [u.wr j, if_neg hj]
      · intro hk hne ho
        by_cases hw2 : ((w.unlinkObjs env x i).obj i).writers = []
        · rw [unlinkWriters_nil env i n hw2] at ho ⊢
          refine u.eofDst ?_ ho
          intro hx
          rcases h.kindW (a := x) (b := i) (by simp [hw]) with h1 | h1
          · rw [hk] at h1; simp [OKind.isConsole] at h1
          · rw [hx] at h1; simp [OKind.isConsole] at h1
        · exact r.eofI (by rw [u.pstep.kind]; exact hk) hw2 ho
      · intro j hj
        rcases r.eofNew j hj with h1 | h1
        · rcases u.eofNew j h1 with h2 | h2
          · exact Or.inl h2
          · right
            refine ⟨?_, ?_⟩
            · have h2 := h2.1
              rw [Obj.orphan_iff] at h2 ⊢
              rw [r.rd, r.wr, r.pstep.kind, h2.1, h2.2.1, h2.2.2]
              simp
            · rcases h2.2 with h3 | h3
              · right; rw [hw, h3]; simp
              · exact Or.inl h3
        · refine Or.inr ⟨h1.1, ?_⟩
          rcases h1.2 with h3 | h3
          · exact Or.inl h3
          · right; rw [hw1] at h3; rw [hw]; exact List.mem_cons_of_mem _ (List.mem_filter.1 h3).1

structure IsoR (env : Env) (w w' : World) (i : Nat) : Prop where
  inv : LInv w'
  pstep : PStep env w w'
  rd : ∀ j, (w'.obj j).readers = if j = i then [] else (w.obj j).readers
  wr : ∀ j, (w'.obj j).writers = (w.obj j).writers.filter (· ≠ i)
  eofI : (w.obj i).readers ≠ [] → (w'.obj i).orphan = true → (w'.obj i).eof = true
  eofOld : ∀ j, (w.obj j).eof = true → (w'.obj j).eof = true
  eofNew : ∀ j, (w'.obj j).eof = true → (w.obj j).eof = true ∨
    ((w'.obj j).orphan = true ∧ (j = i ∨ j ∈ (w.obj i).readers))

theorem unlinkReaders_nil {w : World} (env : Env) (i fuel : Nat) (hw : (w.obj i).readers = []) :
    w.unlinkReaders env i fuel = w := by
  cases fuel with
  | zero => rfl
  | succ n => simp [World.unlinkReaders, hw]

theorem isoR_nil {w : World} (h : LInv w) {i : Nat} (hw : (w.obj i).readers = []) : IsoR env w w i := by
  refine ⟨h, .refl _, ?_, ?_, fun hh => absurd hw hh, fun _ hj => hj, fun _ hj => Or.inl hj⟩
  · intro j
    split
    · rename_i hj; rw [hj, hw]
    · rfl
  · intro j
    rw [filter_ne_of_not_mem]
    intro hi
    have := (h.sym i j).2 hi
    simp [hw] at this

theorem unlinkReaders_spec (env : Env) (i fuel : Nat) : ∀ {w : World}, LInv w →
    (w.obj i).readers.length ≤ fuel → IsoR env w (w.unlinkReaders env i fuel) i := by
  induction fuel with
  | zero =>
    intro w h hf
    exact isoR_nil h (List.length_eq_zero_iff.1 (by omega))
  | succ n ih =>
    intro w h hf
    cases hw : (w.obj i).readers with
    | nil => rw [unlinkReaders_nil env i _ hw]; exact isoR_nil h hw
    | cons x t =>
      have hstep : w.unlinkReaders env i (n + 1) = (w.unlinkObjs env i x).unlinkReaders env i n := by
        simp [World.unlinkReaders, hw]
      have u := unlinkObjs_spec h env i x
      have hw1 : ((w.unlinkObjs env i x).obj i).readers = t.filter (· ≠ x) := by
        rw [u.rd i, if_pos rfl, hw]; simp
      have hlen : ((w.unlinkObjs env i x).obj i).readers.length ≤ n := by
        rw [hw1]
        have := List.length_filter_le (fun a => decide (a ≠ x)) t
        rw [hw] at hf; simp at hf; omega
      have r := ih u.inv hlen
      rw [hstep]
      refine ⟨r.inv, u.pstep.trans r.pstep, ?_, ?_, ?_, fun j hj => r.eofOld j (u.eofOld j hj), ?_⟩
      · intro j
        rw [r.rd j]
        split
        · rfl
        · rename_i hj; rw [u.rd j, if_neg hj]
      · intro j
        rw [r.wr j, u.wr j]
        split
        · rw [List.filter_filter]; simp
        · rfl
      · intro hne ho
        by_cases hw2 : ((w.unlinkObjs env i x).obj i).readers = []
        · rw [unlinkReaders_nil env i n hw2] at ho ⊢
          exact u.eofSrc ho
        · exact r.eofI hw2 ho
      · intro j hj
        rcases r.eofNew j hj with h1 | h1
        · rcases u.eofNew j h1 with h2 | h2
          · exact Or.inl h2
          · right
            refine ⟨?_, ?_⟩
            · have h2 := h2.1
              rw [Obj.orphan_iff] at h2 ⊢
              rw [r.rd, r.wr, r.pstep.kind, h2.1, h2.2.1, h2.2.2]
              simp
            · rcases h2.2 with h3 | h3
              · exact Or.inl h3
              · right; rw [hw, h3]; simp
        · refine Or.inr ⟨h1.1, ?_⟩
          rcases h1.2 with h3 | h3
          · exact Or.inl h3
          · right; rw [hw1] at h3; rw [hw]; exact List.mem_cons_of_mem _ (List.mem_filter.1 h3).1

/-- Effect of `unlink_obj`: all links of `i` are gone, all others stay. -/
structure Iso (env : Env) (w w' : World) (i : Nat) : Prop where
  inv : LInv w'
  pstep : PStep env w w'
  rd : ∀ j, (w'.obj j).readers = if j = i then [] else (w.obj j).readers.filter (· ≠ i)
  wr : ∀ j, (w'.obj j).writers = if j = i then [] else (w.obj j).writers.filter (· ≠ i)
  eofI : (w.obj i).kind = .client → ((w.obj i).writers ≠ [] ∨ (w.obj i).readers ≠ []) → (w'.obj i).eof = true
  eofOld : ∀ j, (w.obj j).eof = true → (w'.obj j).eof = true
  eofNew : ∀ j, (w'.obj j).eof = true → (w.obj j).eof = true ∨
    ((w'.obj j).orphan = true ∧ (j = i ∨ j ∈ (w.obj i).writers ∨ j ∈ (w.obj i).readers))

theorem unlinkObj_spec {w : World} (h : LInv w) (env : Env) (i : Nat) : Iso env w (w.unlinkObj env i) i := by
  have a := unlinkWriters_spec env i _ h (Nat.le_refl _)
  have b := unlinkReaders_spec env i _ a.inv (Nat.le_refl _)
  unfold World.unlinkObj
  have hrd : ∀ j, (((w.unlinkWriters env i (w.obj i).writers.length).unlinkReaders env i
      ((w.unlinkWriters env i (w.obj i).writers.length).obj i).readers.length).obj j).readers =
      if j = i then [] else (w.obj j).readers.filter (· ≠ i) := by
    intro j; rw [b.rd j, a.rd j]
  have hwr : ∀ j, (((w.unlinkWriters env i (w.obj i).writers.length).unlinkReaders env i
      ((w.unlinkWriters env i (w.obj i).writers.length).obj i).readers.length).obj j).writers =
      if j = i then [] else (w.obj j).writers.filter (· ≠ i) := by
    intro j; rw [b.wr j, a.wr j]; split
    · rfl
    · rfl
  refine ⟨b.inv, a.pstep.trans b.pstep, hrd, hwr, ?_, fun j hj => b.eofOld j (a.eofOld j hj), ?_⟩
  · intro hk hne
    have hk2 : (((w.unlinkWriters env i (w.obj i).writers.length).unlinkReaders env i
      ((w.unlinkWriters env i (w.obj i).writers.length).obj i).readers.length).obj i).kind = .client := by
      rw [b.pstep.kind, a.pstep.kind, hk]
    have ho := (Obj.orphan_iff _).2 ⟨hk2, by rw [hrd, if_pos rfl], by rw [hwr, if_pos rfl]⟩
    by_cases hr : ((w.unlinkWriters env i (w.obj i).writers.length).obj i).readers = []
    · rw [unlinkReaders_nil env i _ hr] at ho ⊢
      apply a.eofI hk _ ho
      rcases hne with hne | hne
      · exact hne
      · exfalso
        rw [a.rd i, filter_ne_of_not_mem (h.irrefl i)] at hr
        exact hne hr
    · exact b.eofI hr ho
  · intro j hj
    rcases b.eofNew j hj with h1 | h1
    · rcases a.eofNew j h1 with h2 | h2
      · exact Or.inl h2
      · right
        refine ⟨?_, ?_⟩
        · have h2 := h2.1
          rw [Obj.orphan_iff] at h2 ⊢
          rw [b.rd, b.wr, b.pstep.kind, h2.1, h2.2.1, h2.2.2]
          simp
        · rcases h2.2 with h3 | h3
          · exact Or.inl h3
          · exact Or.inr (Or.inl h3)
    · refine Or.inr ⟨h1.1, ?_⟩
      rcases h1.2 with h3 | h3
      · exact Or.inl h3
      · rw [a.rd] at h3; exact Or.inr (Or.inr (List.mem_filter.1 h3).1)

/-- Several objects lose all their links. -/
structure IsoL (env : Env) (w w' : World) (l : List Nat) : Prop where
  inv : LInv w'
  pstep : PStep env w w'
  rd : ∀ j, (w'.obj j).readers = if j ∈ l then [] else (w.obj j).readers.filter (· ∉ l)
  wr : ∀ j, (w'.obj j).writers = if j ∈ l then [] else (w.obj j).writers.filter (· ∉ l)
  eofOld : ∀ j, (w.obj j).eof = true → (w'.obj j).eof = true
  eofNew : ∀ j, (w'.obj j).eof = true → (w.obj j).eof = true ∨
    ((w'.obj j).orphan = true ∧ (∃ x ∈ l, j = x ∨ j ∈ (w.obj x).writers ∨ j ∈ (w.obj x).readers))

theorem unlinkAll_spec (env : Env) (l : List Nat) : ∀ {w : World}, LInv w →
    IsoL env w (l.foldl (fun w x => w.unlinkObj env x) w) l := by
  induction l with
  | nil =>
    intro w h
    refine ⟨h, .refl _, fun j => ?_, fun j => ?_, fun _ h => h, fun _ h => Or.inl h⟩
    · simp only [List.not_mem_nil, if_false]; exact (List.filter_eq_self.2 (by simp)).symm
    · simp only [List.not_mem_nil, if_false]; exact (List.filter_eq_self.2 (by simp)).symm
  | cons a l ih =>
    intro w h
    have u := unlinkObj_spec h env a
    have r := ih u.inv
    simp only [List.foldl_cons]
    refine ⟨r.inv, u.pstep.trans r.pstep, ?_, ?_, fun j hj => r.eofOld j (u.eofOld j hj), ?_⟩
    · intro j
      rw [r.rd j, u.rd j]
      by_cases h1 : j ∈ l
      · simp [h1]
      · by_cases h2 : j = a
        · simp [h2]
        · simp only [h1, h2, if_false, List.mem_cons, or_self, List.filter_filter]
          congr 1
          funext x
          simp only [not_or, Bool.decide_and, ne_eq, decide_not]
          exact Bool.and_comm _ _
    · intro j
      rw [r.wr j, u.wr j]
      by_cases h1 : j ∈ l
      · simp [h1]
      · by_cases h2 : j = a
        · simp [h2]
        · simp only [h1, h2, if_false, List.mem_cons, or_self, List.filter_filter]
          congr 1
          funext x
          simp only [not_or, Bool.decide_and, ne_eq, decide_not]
          exact Bool.and_comm _ _
    · intro j hj
      rcases r.eofNew j hj with h1 | h1
      · rcases u.eofNew j h1 with h2 | h2
        · exact Or.inl h2
        · right
          refine ⟨?_, a, by simp, h2.2⟩
          have h2 := h2.1
          rw [Obj.orphan_iff] at h2 ⊢
          rw [r.rd, r.wr, r.pstep.kind, h2.1, h2.2.1, h2.2.2]
          simp
      · obtain ⟨x, hx, h3⟩ := h1.2
        refine Or.inr ⟨h1.1, x, by simp [hx], ?_⟩
        rcases h3 with h3 | h3 | h3
        · exact Or.inl h3
        · rw [u.wr] at h3
          split at h3
          · simp at h3
          · exact Or.inr (Or.inl (List.mem_filter.1 h3).1)
        · rw [u.rd] at h3
          split at h3
          · simp at h3
          · exact Or.inr (Or.inr (List.mem_filter.1 h3).1)

/-- Each of them that is a client with a link is marked end-of-file. -/
theorem unlinkAll_eof (env : Env) (l : List Nat) : ∀ {w : World}, LInv w → ∀ x ∈ l,
    (w.obj x).kind = .client → ((w.obj x).writers ≠ [] ∨ (w.obj x).readers ≠ []) →
    (∀ y ∈ l, (w.obj y).kind = .client) →
    ((l.foldl (fun w x => w.unlinkObj env x) w).obj x).eof = true := by
  induction l with
  | nil => intro w _ x hx; simp at hx
  | cons a l ih =>
    intro w h x hx hk hne hall
    have u := unlinkObj_spec h env a
    simp only [List.foldl_cons]
    by_cases hxa : x = a
    · subst hxa
      exact (unlinkAll_spec env l u.inv).eofOld x (u.eofI hk hne)
    · have hxl : x ∈ l := by simpa [hxa] using hx
      apply ih u.inv x hxl (by rw [u.pstep.kind]; exact hk)
      · -- clients are not linked to each other
        have hka := hall a (by simp)
        rw [u.wr x, u.rd x, if_neg hxa, if_neg hxa]
        rw [filter_ne_of_not_mem, filter_ne_of_not_mem]
        · exact hne
        · intro hm
          rcases h.kinds x a hm with h1 | h1
          · rw [hka] at h1; simp [OKind.isConsole] at h1
          · rw [hk] at h1; simp [OKind.isConsole] at h1
        · intro hm
          rcases h.kindW hm with h1 | h1
          · rw [hk] at h1; simp [OKind.isConsole] at h1
          · rw [hka] at h1; simp [OKind.isConsole] at h1
      · intro y hy; rw [u.pstep.kind]; exact hall y (by simp [hy])

/-- The writers `link_objs` takes the console from. -/
def World.stealSet (w : World) (src dst : Nat) : List Nat :=
  if (w.obj src).kind = .client ∧ (w.obj dst).kind.isConsole = true ∧ (w.obj src).force = true then
    (w.obj dst).writers else []

/-- The part of `link_objs` before the link is made. -/
def World.linkPre (w : World) (env : Env) (src dst : Nat) : World :=
  if (w.obj src).kind = .client ∧ (w.obj dst).kind.isConsole then
    let ws := (w.obj dst).writers
    let stolen := (w.obj src).force && !ws.isEmpty
    let wa := w.notify env dst (if stolen then .stolenBy src dst else .joinedBy src dst)
    let wb := ws.foldl (fun w x =>
      w.note env (if stolen then .stolenFrom x dst else .joinedWith x dst) src) wa
    if stolen then ws.foldl (fun w x => w.unlinkObj env x) wb else wb
  else w

theorem linkObjs_eq (w : World) (env : Env) (src dst : Nat) : w.linkObjs env src dst =
    ((w.linkPre env src dst).mod src (fun o => { o with readers := o.readers ++ [dst] })).mod dst
    (fun o => { o with writers := o.writers ++ [src] }) := rfl

theorem IsoL.of_notes {w w' : World} {l : List Nat} (h : LInv w) (hn : NoteStep env w w' l) : IsoL env w w' [] := by
  refine ⟨h.same hn.SL, hn.pstep, fun j => ?_, fun j => ?_, fun j hj => ?_, fun j hj => Or.inl ?_⟩
  · simp only [List.not_mem_nil, if_false]
    rw [(hn.SL.1 j).2.1]; exact (List.filter_eq_self.2 (by simp)).symm
  · simp only [List.not_mem_nil, if_false]
    rw [(hn.SL.1 j).2.2]; exact (List.filter_eq_self.2 (by simp)).symm
  · rw [(hn.touched j).core.2.2.2]; exact hj
  · rw [(hn.touched j).core.2.2.2] at hj; exact hj

/-- Notes first, then the previous writers lose their links. -/
theorem linkPre_notes {w : World} (h : LInv w) (env : Env) (src dst : Nat) :
    ∃ wb, NoteStep env w wb (src :: (w.obj dst).readers ++ (w.obj dst).writers) ∧
      w.linkPre env src dst = (w.stealSet src dst).foldl (fun w x => w.unlinkObj env x) wb := by
  unfold World.linkPre World.stealSet
  by_cases hc : (w.obj src).kind = .client ∧ (w.obj dst).kind.isConsole = true
  · rw [if_pos hc]
    have ha := notify_step h env dst
      (if ((w.obj src).force && !(w.obj dst).writers.isEmpty) = true then Note.stolenBy src dst else .joinedBy src dst) hc.2
    have hb := notes_to_step env (fun x => if ((w.obj src).force && !(w.obj dst).writers.isEmpty) = true then
      Note.stolenFrom x dst else .joinedWith x dst) (w.obj dst).writers _ src
      (by rw [(ha.SL.1 src).1, hc.1]; rfl)
    refine ⟨_, (ha.trans hb).mono (fun x hx => by
      simp only [List.mem_append, List.mem_cons, List.not_mem_nil, or_false] at hx ⊢
      rcases hx with (h1 | h1) | h1 <;> simp [h1]), ?_⟩
    by_cases hf : (w.obj src).force = true
    · simp only [hf, hc.1, hc.2, Bool.true_and, and_self, if_true]
      cases hw : (w.obj dst).writers with
      | nil => simp
      | cons x t => simp
    · simp [hf]
  · rw [if_neg hc]
    refine ⟨w, .refl _ _, ?_⟩
    rw [if_neg (fun hh => hc ⟨hh.1, hh.2.1⟩)]
    rfl

theorem linkPre_spec {w : World} (h : LInv w) (env : Env) (src dst : Nat) :
    IsoL env w (w.linkPre env src dst) (w.stealSet src dst) := by
  obtain ⟨wb, hn, he⟩ := linkPre_notes h env src dst
  rw [he]
  have hi := IsoL.of_notes h hn
  have r := unlinkAll_spec env (w.stealSet src dst) hi.inv
  have hs := hn.SL.1
  refine ⟨r.inv, hi.pstep.trans r.pstep, ?_, ?_, fun j hj => r.eofOld j (hi.eofOld j hj), ?_⟩
  · intro j; rw [r.rd j, (hs j).2.1]
  · intro j; rw [r.wr j, (hs j).2.2]
  · intro j hj
    rcases r.eofNew j hj with h1 | ⟨h1, x, hx, h2⟩
    · left; rw [(hn.touched j).core.2.2.2] at h1; exact h1
    · right; refine ⟨h1, x, hx, ?_⟩
      rw [(hs x).2.2, (hs x).2.1] at h2; exact h2

/-- When a link may be made. -/
structure LinkOk (w : World) (src dst : Nat) : Prop where
  kinds : ((w.obj src).kind = .client ∧ (w.obj dst).kind.isConsole = true) ∨
    ((w.obj src).kind.isConsole = true ∧ (w.obj dst).kind.isConsole = false)
  new : dst ∉ (w.obj src).readers
  live : src ∈ w.live ∧ dst ∈ w.live

structure LinkSpec (env : Env) (w w' : World) (src dst : Nat) : Prop where
  inv : LInv w'
  pstep : PStep env w w'
  rd : ∀ j, (w'.obj j).readers = (if j ∈ w.stealSet src dst then [] else
    (w.obj j).readers.filter (· ∉ w.stealSet src dst)) ++ (if j = src then [dst] else [])
  wr : ∀ j, (w'.obj j).writers = (if j ∈ w.stealSet src dst then [] else
    (w.obj j).writers.filter (· ∉ w.stealSet src dst)) ++ (if j = dst then [src] else [])
  eofOld : ∀ j, (w.obj j).eof = true → (w'.obj j).eof = true
  eofNew : ∀ j, (w'.obj j).eof = true → (w.obj j).eof = true ∨
    ((w.obj j).kind = .client ∧ j ∈ w.stealSet src dst)

theorem stealSet_mem {w : World} {src dst x : Nat} (hx : x ∈ w.stealSet src dst) :
    x ∈ (w.obj dst).writers ∧ (w.obj src).kind = .client ∧ (w.obj dst).kind.isConsole = true ∧
      (w.obj src).force = true := by
  unfold World.stealSet at hx
  split at hx
  · rename_i h; exact ⟨hx, h⟩
  · simp at hx

theorem stealSet_client {w : World} (h : LInv w) {src dst x : Nat} (hx : x ∈ w.stealSet src dst) :
    (w.obj x).kind = .client := by
  obtain ⟨h1, h2, h3, _⟩ := stealSet_mem hx
  rcases h.kindW h1 with h4 | h4
  · exact h4.1
  · rw [h3] at h4; simp at h4

theorem linkObjs_obj (w : World) (env : Env) (src dst j : Nat) :
    (w.linkObjs env src dst).obj j = { (w.linkPre env src dst).obj j with
      readers := ((w.linkPre env src dst).obj j).readers ++ (if j = src then [dst] else [])
      writers := ((w.linkPre env src dst).obj j).writers ++ (if j = dst then [src] else []) } := by
  rw [linkObjs_eq]
  by_cases h1 : j = dst
  · subst h1
    simp only [World.mod_self, World.mod_obj]
    by_cases h2 : j = src
    · subst h2; simp
    · simp [h2]
  · rw [World.mod_ne _ _ h1, World.mod_obj]
    by_cases h2 : j = src
    · subst h2; simp [h1]
    · simp [h1, h2]

theorem linkObjs_spec {w : World} (h : LInv w) (env : Env) {src dst : Nat} (ok : LinkOk w src dst) :
    LinkSpec env w (w.linkObjs env src dst) src dst := by
  have p := linkPre_spec h env src dst
  have hnew : src ∉ (w.obj dst).writers := fun hh => ok.new ((h.sym src dst).2 hh)
  have hsrc : src ∉ w.stealSet src dst := fun hh => hnew (stealSet_mem hh).1
  have hobj := linkObjs_obj w env src dst
  have hkind : ∀ j, ((w.linkObjs env src dst).obj j).kind = (w.obj j).kind := by
    intro j; rw [hobj j]; exact p.pstep.kind j
  have hpre_r : ∀ a b, b ∈ ((w.linkPre env src dst).obj a).readers → b ∈ (w.obj a).readers := by
    intro a b hb
    rw [p.rd a] at hb
    split at hb
    · simp at hb
    · exact (List.mem_filter.1 hb).1
  have hmr : ∀ a b, b ∈ ((w.linkObjs env src dst).obj a).readers ↔
      b ∈ ((w.linkPre env src dst).obj a).readers ∨ (a = src ∧ b = dst) := by
    intro a b; rw [hobj a]; simp only [List.mem_append]
    by_cases ha : a = src <;> simp [ha]
  have hmw : ∀ a b, a ∈ ((w.linkObjs env src dst).obj b).writers ↔
      a ∈ ((w.linkPre env src dst).obj b).writers ∨ (a = src ∧ b = dst) := by
    intro a b; rw [hobj b]; simp only [List.mem_append]
    by_cases ha : b = dst <;> simp [ha]
  refine ⟨⟨?_, ?_, ?_, ?_, ?_⟩, ?_, ?_, ?_, ?_, ?_⟩
  · intro a b; rw [hmr, hmw, p.inv.sym]
  · intro a b hb
    rw [hkind, hkind]
    rcases (hmr a b).1 hb with h1 | ⟨h1, h2⟩
    · exact h.kinds a b (hpre_r a b h1)
    · rw [h1, h2]; exact ok.kinds
  · intro a
    rw [hobj a]; simp only
    by_cases ha : a = src
    · subst ha
      simp only [if_true]
      rw [List.nodup_append]
      refine ⟨p.inv.ndR a, by simp, ?_⟩
      intro x hx y hy
      simp only [List.mem_singleton] at hy
      rintro rfl
      exact ok.new (hy ▸ hpre_r a x hx)
    · simp only [ha, if_false, List.append_nil]; exact p.inv.ndR a
  · intro a
    rw [hobj a]; simp only
    by_cases ha : a = dst
    · subst ha
      simp only [if_true]
      rw [List.nodup_append]
      refine ⟨p.inv.ndW a, by simp, ?_⟩
      intro x hx y hy
      simp only [List.mem_singleton] at hy
      rintro rfl
      subst hy
      exact ok.new (hpre_r x a ((p.inv.sym x a).2 hx))
    · simp only [ha, if_false, List.append_nil]; exact p.inv.ndW a
  · intro a b hb
    have hl : (w.linkObjs env src dst).live = w.live := p.pstep.live
    rw [hl]
    rcases (hmr a b).1 hb with h1 | ⟨h1, h2⟩
    · exact h.live a b (hpre_r a b h1)
    · rw [h1, h2]; exact ok.live
  · refine ⟨p.pstep.rest, fun j => (p.pstep.touched j).trans ?_⟩
    rw [hobj j]; exact .links _ _ _
  · intro j; rw [hobj j]; simp only; rw [p.rd j]
  · intro j; rw [hobj j]; simp only; rw [p.wr j]
  · intro j hj; rw [hobj j]; exact p.eofOld j hj
  · intro j hj
    rw [hobj j] at hj
    rcases p.eofNew j hj with h1 | ⟨h1, x, hx, h2⟩
    · exact Or.inl h1
    · have hk : (w.obj j).kind = .client := by
        rw [Obj.orphan_iff] at h1; rw [← p.pstep.kind]; exact h1.1
      have hkx := stealSet_client h hx
      refine Or.inr ⟨hk, ?_⟩
      rcases h2 with h2 | h2 | h2
      · rw [h2]; exact hx
      · rcases h.kindW h2 with h3 | h3
        · rw [hkx] at h3; simp [OKind.isConsole] at h3
        · rw [hk] at h3; simp [OKind.isConsole] at h3
      · rcases h.kinds x j h2 with h3 | h3
        · rw [hk] at h3; simp [OKind.isConsole] at h3
        · rw [hkx] at h3; simp [OKind.isConsole] at h3

/-- A link that takes nothing away. -/
theorem LinkSpec.plain {w w' : World} {src dst : Nat} (s : LinkSpec env w w' src dst) (hs : w.stealSet src dst = []) :
    (∀ j, (w'.obj j).readers = (w.obj j).readers ++ (if j = src then [dst] else [])) ∧
    (∀ j, (w'.obj j).writers = (w.obj j).writers ++ (if j = dst then [src] else [])) := by
  constructor <;> intro j
  · rw [s.rd j, hs]; simp only [List.not_mem_nil, if_false]
    rw [List.filter_eq_self.2 (by simp)]
  · rw [s.wr j, hs]; simp only [List.not_mem_nil, if_false]
    rw [List.filter_eq_self.2 (by simp)]

end Conman
