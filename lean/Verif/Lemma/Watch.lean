import Verif.Lemma.Slow
import Verif.Lemma.WorldRc
import Verif.Lemma.Apart
import Verif.Lemma.WorldOwn
import Verif.Spec.Watch

/-
Lemmas for `Props/Watch.lean`.  `Hid m w v`: `v` is `w` without the client `m`, which only watches.  `HR m f g`: the
operation `f`, done in a world with `m`, and `g`, done in the same world without it, lead to such a pair again.
-/
set_option linter.unusedVariables false
namespace Conman
open Spec

def hide (m : Nat) (o : Obj) : Obj := { o with readers := o.readers.filter (· ≠ m) }

structure Good (m : Nat) (o : Obj) : Prop where
  nw : m ∉ o.writers
  nr : o.kind = .client → m ∉ o.readers

theorem Good.hide {m : Nat} {o : Obj} (h : Good m o) (hk : o.kind = .client) : hide m o = o := by
  have : o.readers.filter (· ≠ m) = o.readers := List.filter_eq_self.2 (fun x hx => by
    simp only [decide_eq_true_eq]; rintro rfl; exact h.nr hk hx)
  unfold Conman.hide; rw [this]

structure Hid (m : Nat) (w v : World) : Prop where
  obj : ∀ j, j ≠ m → v.obj j = hide m (w.obj j)
  good : ∀ j, j ≠ m → Good m (w.obj j)
  lg : ∀ j, j ≠ m → j ∈ w.live → (w.obj j).kind ≠ .client → (w.obj j).log ≠ some m
  km : (w.obj m).kind = .client
  rm : (w.obj m).readers = []
  live : v.live = w.live.filter (· ≠ m)
  tick : v.tick = w.tick
  running : v.running = w.running
  wait : v.wait = w.wait
  fx : v.fx.filter (fun e => !isSentTo m e) = w.fx.filter (fun e => !isSentTo m e)

theorem Hid.mem {m : Nat} {w v : World} (h : Hid m w v) {i : Nat} (hi : i ≠ m) : i ∈ v.live ↔ i ∈ w.live := by
  rw [h.live, List.mem_filter]; simp [hi]

/-- Two operations, with and without `m`. -/
def HR (m : Nat) (f g : World → World) : Prop := ∀ w v, Hid m w v → Hid m (f w) (g v)

theorem HR.id' (m : Nat) : HR m (fun w => w) (fun w => w) := fun _ _ h => h
theorem HR.comp {m f f' g g'} (hg : HR m g g') (hf : HR m f f') : HR m (fun w => g (f w)) (fun w => g' (f' w)) :=
  fun w v h => hg _ _ (hf w v h)
theorem HR.congr {m f} {g : World → World} (h : HR m f f) (e : ∀ w, g w = f w) : HR m g g := by
  have : g = f := funext e
  rw [this]; exact h

theorem HR.get {m} {i : Nat} (hi : i ≠ m) (g : Obj → World → World) (hg : ∀ o, Good m o → HR m (g o) (g (hide m o))) :
    HR m (fun w => g (w.obj i) w) (fun w => g (w.obj i) w) := by
  intro w v h
  show Hid m (g (w.obj i) w) (g (v.obj i) v)
  rw [h.obj i hi]
  exact hg _ (h.good i hi) w v h

theorem HR.time {m} (g : Nat → World → World) (h : ∀ t, HR m (g t) (g t)) : HR m (fun w => g w.tick w) (fun w => g w.tick w) := by
  intro w v hm
  show Hid m (g w.tick w) (g v.tick v)
  rw [hm.tick]; exact h _ w v hm

theorem HR.ite {m f f' g g'} (c : Prop) [Decidable c] (hf : HR m f f') (hg : HR m g g') :
    HR m (fun w => if c then f w else g w) (fun w => if c then f' w else g' w) := by
  by_cases hc : c
  · simp only [hc, if_true]; exact hf
  · simp only [hc, if_false]; exact hg

/-- A loop over objects, and the same loop without `m`. -/
theorem HR.foldl {m} (f : World → Nat → World) (l : List Nat) (h : ∀ x, x ≠ m → HR m (fun w => f w x) (fun w => f w x))
    (ha : HR m (fun w => f w m) (fun w => w)) :
    HR m (fun w => l.foldl f w) (fun w => (l.filter (· ≠ m)).foldl f w) := by
  induction l with
  | nil => exact HR.id' m
  | cons x l ih =>
    by_cases hx : x = m
    · subst hx
      have e : (x :: l).filter (· ≠ x) = l.filter (· ≠ x) := by simp
      rw [e]
      intro w v hwv
      exact ih _ _ (ha w v hwv)
    · have e : (x :: l).filter (· ≠ m) = x :: l.filter (· ≠ m) := List.filter_cons_of_pos (by simpa using hx)
      rw [e]
      exact HR.comp ih (h x hx)

/-- A loop over other objects. -/
theorem HR.foldl' {m} (f : World → Nat → World) (l : List Nat) (hl : m ∉ l) (h : ∀ x, x ≠ m → HR m (fun w => f w x) (fun w => f w x)) :
    HR m (fun w => l.foldl f w) (fun w => l.foldl f w) := by
  induction l with
  | nil => exact HR.id' m
  | cons x l ih =>
    simp only [List.mem_cons, not_or] at hl
    exact HR.comp (ih hl.2) (h x (fun e => hl.1 e.symm))

structure HideOk (m : Nat) (f : Obj → Obj) (o : Obj) : Prop where
  hide : f (hide m o) = hide m (f o)
  good : Good m (f o)
  kind : (f o).kind = o.kind
  log : (f o).log = o.log

theorem HR.mod {m} {i : Nat} (hi : i ≠ m) (f : Obj → Obj) (hf : ∀ o, Good m o → HideOk m f o) : HR m (fun w => w.mod i f) (fun w => w.mod i f) := by
  intro w v h
  have hne : ∀ j, j ≠ i → (w.mod i f).obj j = w.obj j := fun j hj => World.mod_ne w f hj
  refine ⟨fun j hj => ?_, fun j hj => ?_, fun j hj hl hk => ?_, ?_, ?_, h.live, h.tick, h.running, h.wait, h.fx⟩
  · by_cases e : j = i
    · subst e; rw [World.mod_self, World.mod_self, h.obj j hj]; exact (hf _ (h.good j hj)).hide
    · rw [World.mod_ne _ _ e, World.mod_ne _ _ e]; exact h.obj j hj
  · by_cases e : j = i
    · subst e; rw [World.mod_self]; exact (hf _ (h.good j hj)).good
    · rw [World.mod_ne _ _ e]; exact h.good j hj
  · by_cases e : j = i
    · subst e; rw [World.mod_self] at hk ⊢
      rw [(hf _ (h.good j hj)).log]; rw [(hf _ (h.good j hj)).kind] at hk
      exact h.lg j hj hl hk
    · rw [World.mod_ne _ _ e] at hk ⊢; exact h.lg j hj hl hk
  · rw [hne m (Ne.symm hi)]; exact h.km
  · rw [hne m (Ne.symm hi)]; exact h.rm

/-- A change of `m` itself is not seen. -/
theorem HR.self {m} (f : Obj → Obj) (hk : ∀ o, (f o).kind = o.kind) (hr : ∀ o, (f o).readers = o.readers) :
    HR m (fun w => w.mod m f) (fun w => w) := by
  intro w v h
  refine ⟨fun j hj => ?_, fun j hj => ?_, fun j hj hl => ?_, ?_, ?_, h.live, h.tick, h.running, h.wait, h.fx⟩
  · rw [World.mod_ne _ _ hj]; exact h.obj j hj
  · rw [World.mod_ne _ _ hj]; exact h.good j hj
  · rw [World.mod_ne _ _ hj]; exact h.lg j hj hl
  · rw [World.mod_self, hk]; exact h.km
  · rw [World.mod_self, hr]; exact h.rm

theorem HR.fx {m} (e : Fx) : HR m (fun w => { w with fx := w.fx ++ [e] }) (fun w => { w with fx := w.fx ++ [e] }) := by
  intro w v h
  refine ⟨h.obj, h.good, h.lg, h.km, h.rm, h.live, h.tick, h.running, h.wait, ?_⟩
  simp only [List.filter_append, h.fx]

theorem HR.run' {m} (f : List (Nat × Nat) → List (Nat × Nat)) : HR m (fun w => { w with running := f w.running }) (fun w => { w with running := f w.running }) :=
  fun _ _ h => ⟨h.obj, h.good, h.lg, h.km, h.rm, h.live, h.tick, congrArg f h.running, h.wait, h.fx⟩
theorem HR.wait' {m} (f : List Req → List Req) : HR m (fun w => { w with wait := f w.wait }) (fun w => { w with wait := f w.wait }) :=
  fun _ _ h => ⟨h.obj, h.good, h.lg, h.km, h.rm, h.live, h.tick, h.running, congrArg f h.wait, h.fx⟩
theorem HR.tick1 (m : Nat) : HR m (fun w => { w with tick := w.tick + 1 }) (fun w => { w with tick := w.tick + 1 }) :=
  fun _ _ h => ⟨h.obj, h.good, h.lg, h.km, h.rm, h.live, congrArg (· + 1) h.tick, h.running, h.wait, h.fx⟩

theorem write_hide (m : Nat) (o : Obj) (d : List UInt8) (b : Bool) : (hide m o).write d b = hide m (o.write d b) := by
  unfold Obj.write
  by_cases h1 : d = []
  · rw [if_pos h1, if_pos h1]
  · rw [if_neg h1, if_neg h1]
    by_cases h2 : o.eof = true
    · rw [if_pos h2, if_pos (show (hide m o).eof = true from h2)]
    · rw [if_neg h2, if_neg (show ¬ (hide m o).eof = true from h2)]
      by_cases h3 : b = true ∧ o.kind = .client ∧ o.quiet = true
      · rw [if_pos h3, if_pos (show b = true ∧ (hide m o).kind = .client ∧ (hide m o).quiet = true from h3)]
      · rw [if_neg h3, if_neg (show ¬ (b = true ∧ (hide m o).kind = .client ∧ (hide m o).quiet = true) from h3)]
        simp only [hide]
        congr

theorem write_kind_ (o : Obj) (d : List UInt8) (b : Bool) : (o.write d b).kind = o.kind := by
  rcases o.write_cases d b with h | ⟨_, h⟩ <;> rw [h]
theorem write_log_ (o : Obj) (d : List UInt8) (b : Bool) : (o.write d b).log = o.log := by
  rcases o.write_cases d b with h | ⟨_, h⟩ <;> rw [h]

theorem HideOk.write {m : Nat} {o : Obj} (h : Good m o) (d : List UInt8) (b : Bool) : HideOk m (·.write d b) o :=
  ⟨write_hide m o d b, ⟨by rw [o.write_writers]; exact h.nw, by rw [write_kind_, o.write_readers]; exact h.nr⟩, write_kind_ o d b, write_log_ o d b⟩

theorem HideOk.comp {m : Nat} {o : Obj} {f g : Obj → Obj} (hf : HideOk m f o) (hg : HideOk m g (f o)) : HideOk m (fun o => g (f o)) o :=
  ⟨by show g (f (Conman.hide m o)) = _; rw [hf.hide, hg.hide], hg.good, hg.kind.trans hf.kind, hg.log.trans hf.log⟩

theorem HideOk.thenWrite {m : Nat} {o : Obj} {f : Obj → Obj} (hf : HideOk m f o) (d : List UInt8) (b : Bool) : HideOk m (fun o => (f o).write d b) o :=
  hf.comp (HideOk.write hf.good d b)

theorem HideOk.writes {m : Nat} (l : List (List UInt8)) : ∀ {o : Obj}, Good m o → HideOk m (fun o => l.foldl (fun o d => o.write d false) o) o := by
  induction l with
  | nil => intro o h; exact ⟨rfl, h, rfl, rfl⟩
  | cons d l ih =>
    intro o h
    have h1 := HideOk.write h d false
    exact h1.comp (ih h1.good)

theorem HideOk.writeLog {m : Nat} {o : Obj} (h : Good m o) (clk : Nat → List UInt8) (d : List UInt8) : HideOk m (·.writeLog clk d) o := by
  have h1 : ∀ (s : LineState) (k : Nat) (l : List (List UInt8)), HideOk m (fun o => l.foldl (fun o b => o.write b false) { o with line := s, stamps := k }) o := by
    intro s k l
    have h2 : HideOk m (fun o => { o with line := s, stamps := k }) o := ⟨rfl, ⟨h.nw, h.nr⟩, rfl, rfl⟩
    exact h2.comp (HideOk.writes l h2.good)
  have h3 := h1 ((writeLogData o.opts clk o.line o.stamps d).getD { st := o.line, k := o.stamps }).st
    ((writeLogData o.opts clk o.line o.stamps d).getD { st := o.line, k := o.stamps }).k
    ((writeLogData o.opts clk o.line o.stamps d).getD { st := o.line, k := o.stamps }).out
  exact ⟨h3.hide, h3.good, h3.kind, h3.log⟩

theorem HR.write {m} {i : Nat} (hi : i ≠ m) (d : List UInt8) (b : Bool) : HR m (fun w => w.mod i (·.write d b)) (fun w => w.mod i (·.write d b)) :=
  HR.mod hi _ (fun _ h => HideOk.write h d b)
theorem HR.swrite {m} (d : List UInt8) (b : Bool) : HR m (fun w => w.mod m (·.write d b)) (fun w => w) :=
  HR.self _ (fun o => write_kind_ o d b) (fun o => o.write_readers d b)

/-! ### the operations -/

theorem note_hid {m} (env : Env) (n : Note) {i : Nat} (hi : i ≠ m) : HR m (fun w => w.note env n i) (fun w => w.note env n i) :=
  HR.time (fun t w => w.mod i (·.write (env.txt n t) true)) (fun _ => HR.write hi _ _)
theorem note_self {m} (env : Env) (n : Note) : HR m (fun w => w.note env n m) (fun w => w) :=
  fun w v h => HR.swrite (env.txt n w.tick) true w v h

theorem notify_hid {m} (env : Env) (n : Note) {con : Nat} (hc : con ≠ m) : HR m (fun w => w.notify env con n) (fun w => w.notify env con n) := by
  refine HR.get hc (fun o w => (o.writers.filter (fun i => !o.readers.contains i)).foldl (fun w i => w.note env n i)
    (o.readers.foldl (fun w i => w.note env n i) w)) (fun o ho => ?_)
  have h1 := HR.foldl (m := m) (fun w i => w.note env n i) o.readers (fun x hx => note_hid env n hx) (note_self env n)
  have e : o.writers.filter (fun i => !(o.readers.filter (· ≠ m)).contains i) = o.writers.filter (fun i => !o.readers.contains i) := by
    refine List.filter_congr (fun x hx => ?_)
    have hxm : x ≠ m := fun e => ho.nw (e ▸ hx)
    congr 1
    rw [Bool.eq_iff_iff]
    simp [hxm]
  have h2 := HR.foldl' (m := m) (fun w i => w.note env n i) (o.writers.filter (fun i => !o.readers.contains i))
    (fun h => ho.nw (List.mem_filter.1 h).1) (fun x hx => note_hid env n hx)
  have h3 := HR.comp h2 h1
  show HR m _ (fun w => (o.writers.filter (fun i => !(o.readers.filter (· ≠ m)).contains i)).foldl (fun w i => w.note env n i)
    ((o.readers.filter (· ≠ m)).foldl (fun w i => w.note env n i) w))
  rw [e]
  exact h3

theorem filter_comm' (l : List Nat) (a b : Nat) : (l.filter (· ≠ a)).filter (· ≠ b) = (l.filter (· ≠ b)).filter (· ≠ a) := by
  rw [List.filter_filter, List.filter_filter]
  refine List.filter_congr (fun x _ => ?_)
  rw [Bool.and_comm]

theorem cut_hid {m} {src dst : Nat} (h1 : src ≠ m) (h2 : dst ≠ m) : HR m (fun w => w.cut src dst) (fun w => w.cut src dst) := by
  have a : HR m (fun w => w.mod src (fun o => { o with readers := o.readers.filter (· ≠ dst) }))
    (fun w => w.mod src (fun o => { o with readers := o.readers.filter (· ≠ dst) })) := by
    refine HR.mod h1 _ (fun o ho => ⟨?_, ⟨ho.nw, fun hk h => ho.nr hk (List.mem_filter.1 h).1⟩, rfl, rfl⟩)
    show ({ hide m o with readers := (o.readers.filter (· ≠ m)).filter (· ≠ dst) } : Obj) = { hide m o with readers := (o.readers.filter (· ≠ dst)).filter (· ≠ m) }
    rw [filter_comm']
  have b : HR m (fun w => w.mod dst (fun o => { o with writers := o.writers.filter (· ≠ src) }))
    (fun w => w.mod dst (fun o => { o with writers := o.writers.filter (· ≠ src) })) :=
    HR.mod h2 _ (fun o ho => ⟨rfl, ⟨fun h => ho.nw (List.mem_filter.1 h).1, ho.nr⟩, rfl, rfl⟩)
  exact HR.comp b a

theorem orphan_hide {m : Nat} {o : Obj} (ho : Good m o) : (hide m o).orphan = o.orphan := by
  by_cases hk : o.kind = .client
  · rw [ho.hide hk]
  · unfold Obj.orphan
    have hk' : ¬ (hide m o).kind = .client := hk
    simp [hk, hk']

theorem eof_hid {m} {i : Nat} (hi : i ≠ m) : HR m (fun w : World => w.mod i (fun o => { o with eof := true }))
    (fun w : World => w.mod i (fun o => { o with eof := true })) :=
  HR.mod hi _ (fun _ ho => ⟨rfl, ⟨ho.nw, ho.nr⟩, rfl, rfl⟩)

theorem unlinkObjs_hid {m} (env : Env) {src dst : Nat} (hs : src ≠ m) (hd : dst ≠ m) :
    HR m (fun w => w.unlinkObjs env src dst) (fun w => w.unlinkObjs env src dst) := by
  refine HR.get hd (fun od w =>
    let n := od.writers.count src
    let w1 := w.cut src dst
    let w2 := if n > 0 ∧ (w1.obj src).kind = .client ∧ (w1.obj dst).kind.isConsole then
      w1.notify env dst (.departed src dst) else w1
    if (w2.obj src).orphan then w2.mod src (fun o => { o with eof := true })
    else if (w2.obj dst).orphan then w2.mod dst (fun o => { o with eof := true })
    else w2) (fun od hod => ?_)
  have h2 : HR m (fun w1 : World => if od.writers.count src > 0 ∧ (w1.obj src).kind = .client ∧ (w1.obj dst).kind.isConsole then
      w1.notify env dst (.departed src dst) else w1) (fun w1 : World => if od.writers.count src > 0 ∧ (w1.obj src).kind = .client ∧ (w1.obj dst).kind.isConsole then
      w1.notify env dst (.departed src dst) else w1) :=
    HR.get hs (fun o1 w1 => if od.writers.count src > 0 ∧ o1.kind = .client ∧ (w1.obj dst).kind.isConsole then
      w1.notify env dst (.departed src dst) else w1) (fun o1 _ =>
    HR.get hd (fun o2 w1 => if od.writers.count src > 0 ∧ o1.kind = .client ∧ o2.kind.isConsole then
      w1.notify env dst (.departed src dst) else w1) (fun o2 _ =>
      HR.ite _ (notify_hid env _ hd) (HR.id' m)))
  have h3 : HR m (fun w2 : World => if (w2.obj src).orphan then w2.mod src (fun o => { o with eof := true })
    else if (w2.obj dst).orphan then w2.mod dst (fun o => { o with eof := true }) else w2)
    (fun w2 : World => if (w2.obj src).orphan then w2.mod src (fun o => { o with eof := true })
    else if (w2.obj dst).orphan then w2.mod dst (fun o => { o with eof := true }) else w2) :=
    HR.get hs (fun o1 w2 => if o1.orphan then w2.mod src (fun o => { o with eof := true })
      else if (w2.obj dst).orphan then w2.mod dst (fun o => { o with eof := true }) else w2) (fun o1 g1 => by
    rw [orphan_hide g1]
    exact HR.get hd (fun o2 w2 => if o1.orphan then w2.mod src (fun o => { o with eof := true })
      else if o2.orphan then w2.mod dst (fun o => { o with eof := true }) else w2) (fun o2 g2 => by
      rw [orphan_hide g2]
      exact HR.ite _ (eof_hid hs) (HR.ite _ (eof_hid hd) (HR.id' m))))
  exact HR.comp h3 (HR.comp h2 (cut_hid hs hd))

/-- What `unlinkObjs` leaves of the readers, and of the kinds. -/
theorem note_links (w : World) (env : Env) (n : Note) (i j : Nat) :
    ((w.note env n i).obj j).readers = (w.obj j).readers ∧ ((w.note env n i).obj j).kind = (w.obj j).kind ∧
    ((w.note env n i).obj j).writers = (w.obj j).writers := by
  unfold World.note
  by_cases e : j = i
  · subst e; rw [World.mod_self]; exact ⟨(w.obj j).write_readers _ _, write_kind_ _ _ _, (w.obj j).write_writers _ _⟩
  · rw [World.mod_ne _ _ e]; exact ⟨rfl, rfl, rfl⟩

theorem notes_links (env : Env) (n : Note) (j : Nat) (l : List Nat) : ∀ w : World,
    ((l.foldl (fun w i => w.note env n i) w).obj j).readers = (w.obj j).readers ∧ ((l.foldl (fun w i => w.note env n i) w).obj j).kind = (w.obj j).kind ∧
    ((l.foldl (fun w i => w.note env n i) w).obj j).writers = (w.obj j).writers := by
  induction l with
  | nil => intro w; exact ⟨rfl, rfl, rfl⟩
  | cons x l ih =>
    intro w
    obtain ⟨a, b, c⟩ := ih (w.note env n x)
    obtain ⟨a', b', c'⟩ := note_links w env n x j
    exact ⟨a.trans a', b.trans b', c.trans c'⟩

theorem notify_links (w : World) (env : Env) (con : Nat) (n : Note) (j : Nat) :
    ((w.notify env con n).obj j).readers = (w.obj j).readers ∧ ((w.notify env con n).obj j).kind = (w.obj j).kind ∧
    ((w.notify env con n).obj j).writers = (w.obj j).writers := by
  unfold World.notify
  dsimp only
  obtain ⟨a, b, c⟩ := notes_links env n j ((w.obj con).writers.filter (fun i => !(w.obj con).readers.contains i)) ((w.obj con).readers.foldl (fun w i => w.note env n i) w)
  obtain ⟨a', b', c'⟩ := notes_links env n j (w.obj con).readers w
  exact ⟨a.trans a', b.trans b', c.trans c'⟩

theorem cut_links (w : World) (src dst j : Nat) :
    ((w.cut src dst).obj j).readers = (if j = src then (w.obj j).readers.filter (· ≠ dst) else (w.obj j).readers) ∧
    ((w.cut src dst).obj j).kind = (w.obj j).kind ∧
    ((w.cut src dst).obj j).writers = (if j = dst then (w.obj j).writers.filter (· ≠ src) else (w.obj j).writers) := by
  have a : ∀ (w : World) (f : Obj → Obj) (i : Nat), (w.mod i f).obj j = if j = i then f (w.obj j) else w.obj j := by
    intro w f i
    by_cases e : j = i
    · subst e; rw [World.mod_self, if_pos rfl]
    · rw [World.mod_ne _ _ e, if_neg e]
  simp only [World.cut]
  rw [a, a]
  by_cases e1 : j = src
  · rw [if_pos e1, if_pos e1]
    by_cases e2 : j = dst
    · rw [if_pos e2, if_pos e2]; exact ⟨rfl, rfl, rfl⟩
    · rw [if_neg e2, if_neg e2]; exact ⟨rfl, rfl, rfl⟩
  · rw [if_neg e1, if_neg e1]
    by_cases e2 : j = dst
    · rw [if_pos e2, if_pos e2]; exact ⟨rfl, rfl, rfl⟩
    · rw [if_neg e2, if_neg e2]; exact ⟨rfl, rfl, rfl⟩

theorem unlinkObjs_links (w : World) (env : Env) (src dst j : Nat) :
    ((w.unlinkObjs env src dst).obj j).readers = (if j = src then (w.obj j).readers.filter (· ≠ dst) else (w.obj j).readers) ∧
    ((w.unlinkObjs env src dst).obj j).kind = (w.obj j).kind ∧
    ((w.unlinkObjs env src dst).obj j).writers = (if j = dst then (w.obj j).writers.filter (· ≠ src) else (w.obj j).writers) := by
  unfold World.unlinkObjs
  dsimp only
  have hc := cut_links w src dst j
  have h2 : ∀ w2 : World, w2 = (if (w.obj dst).writers.count src > 0 ∧ ((w.cut src dst).obj src).kind = .client ∧ ((w.cut src dst).obj dst).kind.isConsole then
      (w.cut src dst).notify env dst (.departed src dst) else w.cut src dst) →
      (w2.obj j).readers = (if j = src then (w.obj j).readers.filter (· ≠ dst) else (w.obj j).readers) ∧
      (w2.obj j).kind = (w.obj j).kind ∧
      (w2.obj j).writers = (if j = dst then (w.obj j).writers.filter (· ≠ src) else (w.obj j).writers) := by
    intro w2 e
    subst e
    split
    · obtain ⟨a, b, c⟩ := notify_links (w.cut src dst) env dst (.departed src dst) j
      exact ⟨a.trans hc.1, b.trans hc.2.1, c.trans hc.2.2⟩
    · exact hc
  revert h2
  generalize (if (w.obj dst).writers.count src > 0 ∧ ((w.cut src dst).obj src).kind = .client ∧ ((w.cut src dst).obj dst).kind.isConsole then
      (w.cut src dst).notify env dst (.departed src dst) else w.cut src dst) = w2
  intro h2
  obtain ⟨a, b, c⟩ := h2 w2 rfl
  have he : ∀ i, ((w2.mod i (fun o => { o with eof := true })).obj j).readers = (w2.obj j).readers ∧
      ((w2.mod i (fun o => { o with eof := true })).obj j).kind = (w2.obj j).kind ∧
      ((w2.mod i (fun o => { o with eof := true })).obj j).writers = (w2.obj j).writers := by
    intro i
    by_cases e : j = i
    · subst e; rw [World.mod_self]; exact ⟨rfl, rfl, rfl⟩
    · rw [World.mod_ne _ _ e]; exact ⟨rfl, rfl, rfl⟩
  split
  · exact ⟨(he src).1.trans a, (he src).2.1.trans b, (he src).2.2.trans c⟩
  · split
    · exact ⟨(he dst).1.trans a, (he dst).2.1.trans b, (he dst).2.2.trans c⟩
    · exact ⟨a, b, c⟩

/-- The link from a console to `m` goes: not seen. -/
theorem unlinkObjs_absorb {m : Nat} {w v : World} (h : Hid m w v) (env : Env) {x : Nat} (hx : x ≠ m) (hk : (w.obj x).kind ≠ .client) :
    Hid m (w.unlinkObjs env x m) v := by
  have hcut : Hid m (w.cut x m) v := by
    have e0 : ∀ j, j ≠ m → (w.cut x m).obj j = if j = x then { w.obj j with readers := (w.obj j).readers.filter (· ≠ m) } else w.obj j := by
      intro j hj
      simp only [World.cut]
      rw [World.mod_ne _ _ hj]
      by_cases e : j = x
      · subst e; rw [World.mod_self, if_pos rfl]
      · rw [World.mod_ne _ _ e, if_neg e]
    refine ⟨fun j hj => ?_, fun j hj => ?_, fun j hj hl hk => ?_, ?_, ?_, h.live, h.tick, h.running, h.wait, h.fx⟩
    · rw [e0 j hj, h.obj j hj]
      by_cases e : j = x
      · rw [if_pos e]
        show hide m (w.obj j) = { hide m (w.obj j) with readers := ((w.obj j).readers.filter (· ≠ m)).filter (· ≠ m) }
        rw [List.filter_filter]
        simp only [Bool.and_self]
        rfl
      · rw [if_neg e]
    · rw [e0 j hj]
      by_cases e : j = x
      · rw [if_pos e]; exact ⟨(h.good j hj).nw, fun hk h' => (h.good j hj).nr hk (List.mem_filter.1 h').1⟩
      · rw [if_neg e]; exact h.good j hj
    · rw [e0 j hj] at hk ⊢
      by_cases e : j = x
      · rw [if_pos e] at hk ⊢; exact h.lg j hj hl hk
      · rw [if_neg e] at hk ⊢; exact h.lg j hj hl hk
    · rw [(cut_links w x m m).2.1]; exact h.km
    · rw [(cut_links w x m m).1, if_neg (Ne.symm hx)]; exact h.rm
  unfold World.unlinkObjs
  dsimp only
  have hc : ¬ ((w.obj m).writers.count x > 0 ∧ ((w.cut x m).obj x).kind = .client ∧ ((w.cut x m).obj m).kind.isConsole = true) := by
    rw [(cut_links w x m x).2.1]; exact fun g => hk g.2.1
  rw [if_neg hc]
  have ho : ¬ ((w.cut x m).obj x).orphan = true := by
    unfold Obj.orphan
    rw [(cut_links w x m x).2.1]; simp [hk]
  rw [if_neg ho]
  by_cases h3 : ((w.cut x m).obj m).orphan = true
  · rw [if_pos h3]
    exact HR.self (fun o => { o with eof := true }) (fun _ => rfl) (fun _ => rfl) _ _ hcut
  · rw [if_neg h3]; exact hcut

theorem unlinkWriters_hid {m} (env : Env) {i : Nat} (hi : i ≠ m) (fuel : Nat) :
    HR m (fun w => w.unlinkWriters env i fuel) (fun w => w.unlinkWriters env i fuel) := by
  induction fuel with
  | zero => exact (HR.id' m).congr (fun _ => rfl)
  | succ n ih =>
    refine (HR.get hi (fun o w => match o.writers with
      | [] => w
      | x :: _ => (w.unlinkObjs env x i).unlinkWriters env i n) (fun o ho => ?_)).congr (fun _ => rfl)
    show HR m (fun w => match o.writers with
      | [] => w
      | x :: _ => (w.unlinkObjs env x i).unlinkWriters env i n) (fun w => match o.writers with
      | [] => w
      | x :: _ => (w.unlinkObjs env x i).unlinkWriters env i n)
    cases hw : o.writers with
    | nil => exact HR.id' m
    | cons x l =>
      have hx : x ≠ m := fun e => ho.nw (by rw [hw, e]; exact List.mem_cons_self)
      exact HR.comp ih (unlinkObjs_hid env hx hi)

theorem unlinkReaders_hid {m} (env : Env) {i : Nat} (hi : i ≠ m) (n : Nat) : ∀ (n' : Nat) (w v : World), Hid m w v →
    (w.obj i).readers.length ≤ n → (v.obj i).readers.length ≤ n' → Hid m (w.unlinkReaders env i n) (v.unlinkReaders env i n') := by
  induction n with
  | zero =>
    intro n' w v h h1 h2
    have e : (w.obj i).readers = [] := List.eq_nil_of_length_eq_zero (by omega)
    have e' : (v.obj i).readers = [] := by rw [h.obj i hi]; show (w.obj i).readers.filter _ = []; rw [e]; rfl
    rw [unlinkReaders_nil env i n' e']; exact h
  | succ n ih =>
    intro n' w v h h1 h2
    cases hr : (w.obj i).readers with
    | nil =>
      have e' : (v.obj i).readers = [] := by rw [h.obj i hi]; show (w.obj i).readers.filter _ = []; rw [hr]; rfl
      rw [unlinkReaders_nil env i n' e', unlinkReaders_nil env i _ hr]; exact h
    | cons x l =>
      have ew : w.unlinkReaders env i (n + 1) = (w.unlinkObjs env i x).unlinkReaders env i n := by
        show (match (w.obj i).readers with
          | [] => w
          | x :: _ => (w.unlinkObjs env i x).unlinkReaders env i n) = _
        rw [hr]
      rw [ew]
      have hlen : ((w.unlinkObjs env i x).obj i).readers.length ≤ n := by
        rw [(unlinkObjs_links w env i x i).1, if_pos rfl, hr]
        have : ((x :: l).filter (· ≠ x)).length ≤ l.length := by
          rw [List.filter_cons_of_neg (by simp)]; exact List.length_filter_le _ _
        rw [hr] at h1
        simp only [List.length_cons] at h1
        omega
      by_cases hx : x = m
      · subst hx
        have hk : (w.obj i).kind ≠ .client := fun hk => (h.good i hi).nr hk (by rw [hr]; exact List.mem_cons_self)
        exact ih n' _ _ (unlinkObjs_absorb h env hi hk) hlen h2
      · have ev : (v.obj i).readers = x :: l.filter (· ≠ m) := by
          rw [h.obj i hi]; show (w.obj i).readers.filter _ = _; rw [hr]; exact List.filter_cons_of_pos (by simpa using hx)
        cases n' with
        | zero => rw [ev] at h2; simp at h2
        | succ n' =>
          have ev' : v.unlinkReaders env i (n' + 1) = (v.unlinkObjs env i x).unlinkReaders env i n' := by
            show (match (v.obj i).readers with
              | [] => v
              | x :: _ => (v.unlinkObjs env i x).unlinkReaders env i n') = _
            rw [ev]
          rw [ev']
          refine ih n' _ _ (unlinkObjs_hid env hi hx w v h) hlen ?_
          rw [(unlinkObjs_links v env i x i).1, if_pos rfl, ev]
          have : ((x :: l.filter (· ≠ m)).filter (· ≠ x)).length ≤ (l.filter (· ≠ m)).length := by
            rw [List.filter_cons_of_neg (by simp)]; exact List.length_filter_le _ _
          rw [ev] at h2
          simp only [List.length_cons] at h2
          omega

theorem unlinkObj_hid {m} (env : Env) {i : Nat} (hi : i ≠ m) : HR m (fun w => w.unlinkObj env i) (fun w => w.unlinkObj env i) := by
  have h1 : HR m (fun w => w.unlinkWriters env i (w.obj i).writers.length) (fun w => w.unlinkWriters env i (w.obj i).writers.length) :=
    HR.get hi (fun o w => w.unlinkWriters env i o.writers.length) (fun o _ => unlinkWriters_hid env hi _)
  intro w v h
  exact unlinkReaders_hid env hi _ _ _ _ (h1 w v h) (Nat.le_refl _) (Nat.le_refl _)

/-- `m` itself is unlinked. -/
theorem unlinkWriters_absorb {m : Nat} (env : Env) (fuel : Nat) : ∀ {w v : World}, Hid m w v →
    (∀ x ∈ (w.obj m).writers, x ≠ m ∧ (w.obj x).kind ≠ .client) → Hid m (w.unlinkWriters env m fuel) v := by
  induction fuel with
  | zero => intro w v h _; exact h
  | succ n ih =>
    intro w v h hw
    show Hid m (match (w.obj m).writers with
      | [] => w
      | x :: _ => (w.unlinkObjs env x m).unlinkWriters env m n) v
    cases hr : (w.obj m).writers with
    | nil => exact h
    | cons x l =>
      obtain ⟨hx, hk⟩ := hw x (by rw [hr]; exact List.mem_cons_self)
      refine ih (unlinkObjs_absorb h env hx hk) (fun y hy => ?_)
      rw [(unlinkObjs_links w env x m m).2.2, if_pos rfl] at hy
      rw [(unlinkObjs_links w env x m y).2.1]
      exact hw y (List.mem_filter.1 hy).1

theorem unlinkObj_absorb {m : Nat} (env : Env) {w v : World} (h : Hid m w v)
    (hw : ∀ x ∈ (w.obj m).writers, x ≠ m ∧ (w.obj x).kind ≠ .client) : Hid m (w.unlinkObj env m) v := by
  have h1 := unlinkWriters_absorb env (w.obj m).writers.length h hw
  unfold World.unlinkObj
  dsimp only
  rw [unlinkReaders_nil env m _ h1.rm]
  exact h1

theorem linkObjs_hid {m} (env : Env) {src dst : Nat} (hs : src ≠ m) (hd : dst ≠ m) :
    HR m (fun w => w.linkObjs env src dst) (fun w => w.linkObjs env src dst) := by
  have h1 : HR m (fun w : World => if (w.obj src).kind = .client ∧ (w.obj dst).kind.isConsole then
      let ws := (w.obj dst).writers
      let stolen := (w.obj src).force && !ws.isEmpty
      let wa := w.notify env dst (if stolen then .stolenBy src dst else .joinedBy src dst)
      let wb := ws.foldl (fun w x =>
        w.note env (if stolen then .stolenFrom x dst else .joinedWith x dst) src) wa
      if stolen then ws.foldl (fun w x => w.unlinkObj env x) wb else wb
    else w) (fun w : World => if (w.obj src).kind = .client ∧ (w.obj dst).kind.isConsole then
      let ws := (w.obj dst).writers
      let stolen := (w.obj src).force && !ws.isEmpty
      let wa := w.notify env dst (if stolen then .stolenBy src dst else .joinedBy src dst)
      let wb := ws.foldl (fun w x =>
        w.note env (if stolen then .stolenFrom x dst else .joinedWith x dst) src) wa
      if stolen then ws.foldl (fun w x => w.unlinkObj env x) wb else wb
    else w) := by
    refine HR.get hs (fun o1 w => if o1.kind = .client ∧ (w.obj dst).kind.isConsole then
      let ws := (w.obj dst).writers
      let stolen := o1.force && !ws.isEmpty
      let wa := w.notify env dst (if stolen then .stolenBy src dst else .joinedBy src dst)
      let wb := ws.foldl (fun w x =>
        w.note env (if stolen then .stolenFrom x dst else .joinedWith x dst) src) wa
      if stolen then ws.foldl (fun w x => w.unlinkObj env x) wb else wb
    else w) (fun o1 _ => ?_)
    refine HR.get hd (fun o2 w => if o1.kind = .client ∧ o2.kind.isConsole then
      let stolen := o1.force && !o2.writers.isEmpty
      let wa := w.notify env dst (if stolen then .stolenBy src dst else .joinedBy src dst)
      let wb := o2.writers.foldl (fun w x =>
        w.note env (if stolen then .stolenFrom x dst else .joinedWith x dst) src) wa
      if stolen then o2.writers.foldl (fun w x => w.unlinkObj env x) wb else wb
    else w) (fun o2 g2 => ?_)
    refine HR.ite _ ?_ (HR.id' m)
    have hn := notify_hid (m := m) env (if (o1.force && !o2.writers.isEmpty) then .stolenBy src dst else .joinedBy src dst) hd
    have hf : HR m (fun w => o2.writers.foldl (fun w x =>
        w.note env (if (o1.force && !o2.writers.isEmpty) then .stolenFrom x dst else .joinedWith x dst) src) w)
        (fun w => o2.writers.foldl (fun w x =>
        w.note env (if (o1.force && !o2.writers.isEmpty) then .stolenFrom x dst else .joinedWith x dst) src) w) :=
      HR.foldl' _ _ g2.nw (fun x _ => note_hid env _ hs)
    have hu : HR m (fun w : World => if (o1.force && !o2.writers.isEmpty) then o2.writers.foldl (fun w x => w.unlinkObj env x) w else w)
      (fun w : World => if (o1.force && !o2.writers.isEmpty) then o2.writers.foldl (fun w x => w.unlinkObj env x) w else w) :=
      HR.ite _ (HR.foldl' _ _ g2.nw (fun x hx => unlinkObj_hid env hx)) (HR.id' m)
    exact HR.comp hu (HR.comp hf hn)
  have h2 : HR m (fun w => w.mod src (fun o => { o with readers := o.readers ++ [dst] })) (fun w => w.mod src (fun o => { o with readers := o.readers ++ [dst] })) := by
    refine HR.mod hs _ (fun o ho => ⟨?_, ⟨ho.nw, fun hk h => ?_⟩, rfl, rfl⟩)
    · show ({ hide m o with readers := o.readers.filter (· ≠ m) ++ [dst] } : Obj) = { hide m o with readers := (o.readers ++ [dst]).filter (· ≠ m) }
      rw [List.filter_append, List.filter_cons_of_pos (by simpa using hd)]; rfl
    · rcases List.mem_append.1 h with h | h
      · exact ho.nr hk h
      · exact hd (List.mem_singleton.1 h).symm
  have h3 : HR m (fun w => w.mod dst (fun o => { o with writers := o.writers ++ [src] })) (fun w => w.mod dst (fun o => { o with writers := o.writers ++ [src] })) := by
    refine HR.mod hd _ (fun o ho => ⟨rfl, ⟨fun h => ?_, ho.nr⟩, rfl, rfl⟩)
    rcases List.mem_append.1 h with h | h
    · exact ho.nw h
    · exact hs (List.mem_singleton.1 h).symm
  exact HR.comp h3 (HR.comp h2 h1)

theorem break1_hid {m} {con : Nat} (hc : con ≠ m) : HR m (fun w => w.break1 con) (fun w => w.break1 con) := by
  refine (HR.get hc (fun o w => match o.kind with
    | .process => w.mod con (·.write [0x26, 0x42] false)
    | .serial | .ipmi => { w with fx := w.fx ++ [.brk con] }
    | .telnet => if o.conn = .up then w.mod con (·.write (sendTelnetCmd 243 none) false) else w
    | _ => w) (fun o _ => ?_)).congr (fun _ => rfl)
  show HR m _ (fun w => match o.kind with
    | .process => w.mod con (·.write [0x26, 0x42] false)
    | .serial | .ipmi => { w with fx := w.fx ++ [.brk con] }
    | .telnet => if o.conn = .up then w.mod con (·.write (sendTelnetCmd 243 none) false) else w
    | _ => w)
  cases o.kind with
  | process => exact HR.write hc _ _
  | serial => exact HR.fx (.brk con)
  | ipmi => exact HR.fx (.brk con)
  | telnet => exact HR.ite _ (HR.write hc _ _) (HR.id' m)
  | client => exact HR.id' m
  | logfile => exact HR.id' m
  | unixsock => exact HR.id' m
  | test => exact HR.id' m

theorem reset1_hid {m} (env : Env) (c : Nat) {con : Nat} (hc : con ≠ m) : HR m (fun w => w.reset1 env c con) (fun w => w.reset1 env c con) := by
  refine HR.comp (g := fun w1 => { w1 with tick := w1.tick + 1 }) (g' := fun w1 => { w1 with tick := w1.tick + 1 })
    (f := fun w =>
    if (w.obj con).resetCmd = false then w
    else if (w.obj con).resetPid.isSome then w.notify env con (.resetBusy con)
    else if env.fmtOk con w.tick = false then w.notify env con (.resetLong con)
    else
      match env.fork w.tick with
      | none => w.notify env con (.resetFork con)
      | some pid =>
        (({ w with running := w.running ++ [(con, pid)], fx := w.fx ++ [.resetStart con pid] } : World).mod con
          (fun o => { o with resetPid := some pid, resetTimer := true })).notify env con (.resetBy c con))
    (f' := fun w =>
    if (w.obj con).resetCmd = false then w
    else if (w.obj con).resetPid.isSome then w.notify env con (.resetBusy con)
    else if env.fmtOk con w.tick = false then w.notify env con (.resetLong con)
    else
      match env.fork w.tick with
      | none => w.notify env con (.resetFork con)
      | some pid =>
        (({ w with running := w.running ++ [(con, pid)], fx := w.fx ++ [.resetStart con pid] } : World).mod con
          (fun o => { o with resetPid := some pid, resetTimer := true })).notify env con (.resetBy c con))
    (HR.tick1 m) ?_
  refine HR.get hc (fun o w =>
    if o.resetCmd = false then w
    else if o.resetPid.isSome then w.notify env con (.resetBusy con)
    else if env.fmtOk con w.tick = false then w.notify env con (.resetLong con)
    else
      match env.fork w.tick with
      | none => w.notify env con (.resetFork con)
      | some pid =>
        (({ w with running := w.running ++ [(con, pid)], fx := w.fx ++ [.resetStart con pid] } : World).mod con
          (fun o => { o with resetPid := some pid, resetTimer := true })).notify env con (.resetBy c con)) (fun o _ => ?_)
  refine HR.time (fun t w =>
    if o.resetCmd = false then w
    else if o.resetPid.isSome then w.notify env con (.resetBusy con)
    else if env.fmtOk con t = false then w.notify env con (.resetLong con)
    else
      match env.fork t with
      | none => w.notify env con (.resetFork con)
      | some pid =>
        (({ w with running := w.running ++ [(con, pid)], fx := w.fx ++ [.resetStart con pid] } : World).mod con
          (fun o => { o with resetPid := some pid, resetTimer := true })).notify env con (.resetBy c con)) (fun t => ?_)
  refine HR.ite _ (HR.id' m) (HR.ite _ (notify_hid env _ hc) (HR.ite _ (notify_hid env _ hc) ?_))
  cases env.fork t with
  | none => exact notify_hid env _ hc
  | some pid =>
    have h1 : HR m (fun w => w.mod con (fun o => { o with resetPid := some pid, resetTimer := true }))
      (fun w => w.mod con (fun o => { o with resetPid := some pid, resetTimer := true })) :=
      HR.mod hc _ (fun o ho => ⟨rfl, ⟨ho.nw, ho.nr⟩, rfl, rfl⟩)
    exact HR.comp (notify_hid env _ hc) (HR.comp h1
      (HR.comp (HR.fx (.resetStart con pid)) (HR.run' (· ++ [(con, pid)]))))

/-! ### partial operations -/

def HidO (m : Nat) : Option World → Option World → Prop
  | none, none => True
  | some a, some b => Hid m a b
  | _, _ => False

def HRO (m : Nat) (f g : World → Option World) : Prop := ∀ w v, Hid m w v → HidO m (f w) (g v)

theorem HRO.congr {m f} {g : World → Option World} (h : HRO m f f) (e : ∀ w, g w = f w) : HRO m g g := by
  have : g = f := funext e
  rw [this]; exact h

theorem HR.opt {m f g} (h : HR m f g) : HRO m (fun w => some (f w)) (fun w => some (g w)) := fun w v hm => h w v hm
theorem HRO.none (m : Nat) : HRO m (fun _ => Option.none) (fun _ => Option.none) := fun _ _ _ => trivial

theorem HidO.map {m} {a b : Option World} {f g : World → World} (h : HidO m a b) (hf : ∀ x y, a = some x → b = some y → Hid m x y → Hid m (f x) (g y)) :
    HidO m (a.map f) (b.map g) := by
  cases a with
  | none => cases b with
    | none => trivial
    | some b => exact h.elim
  | some a => cases b with
    | none => exact h.elim
    | some b => exact hf a b rfl rfl h

theorem HidO.bind {m} {a b : Option World} {f g : World → Option World} (h : HidO m a b) (hf : ∀ x y, a = some x → b = some y → Hid m x y → HidO m (f x) (g y)) :
    HidO m (a.bind f) (b.bind g) := by
  cases a with
  | none => cases b with
    | none => trivial
    | some b => exact h.elim
  | some a => cases b with
    | none => exact h.elim
    | some b => exact hf a b rfl rfl h

theorem HRO.comp {m} {f f' : World → World} {g g' : World → Option World} (hg : HRO m g g') (hf : HR m f f') :
    HRO m (fun w => g (f w)) (fun w => g' (f' w)) := fun w v h => hg _ _ (hf w v h)

theorem HRO.get {m} {i : Nat} (hi : i ≠ m) (g : Obj → World → Option World) (hg : ∀ o, Good m o → HRO m (g o) (g (hide m o))) :
    HRO m (fun w => g (w.obj i) w) (fun w => g (w.obj i) w) := by
  intro w v h
  show HidO m (g (w.obj i) w) (g (v.obj i) v)
  rw [h.obj i hi]
  exact hg _ (h.good i hi) w v h

theorem HRO.ite {m} {f f' g g' : World → Option World} (c : Prop) [Decidable c] (hf : HRO m f f') (hg : HRO m g g') :
    HRO m (fun w => if c then f w else g w) (fun w => if c then f' w else g' w) := by
  by_cases hc : c
  · simp only [hc, if_true]; exact hf
  · simp only [hc, if_false]; exact hg


theorem Hid.same {m : Nat} {w v : World} (h : Hid m w v) {c : Nat} (hc : c ≠ m) (hk : (w.obj c).kind = .client) : v.obj c = w.obj c := by
  rw [h.obj c hc, (h.good c hc).hide hk]

theorem toggle_hid {m : Nat} {w v : World} (h : Hid m w v) (env : Env) {c : Nat} (hc : c ≠ m) (hk : (w.obj c).kind = .client) :
    HidO m (w.toggle env c) (v.toggle env c) := by
  unfold World.toggle
  rw [h.same hc hk]
  by_cases hb : (w.obj c).bcast = true
  · rw [if_pos hb, if_pos hb]; exact h
  · rw [if_neg hb, if_neg hb]
    cases hw : (w.obj c).writers with
    | nil => trivial
    | cons con l =>
      have hcon : con ≠ m := fun e => (h.good c hc).nw (by rw [hw, e]; exact List.mem_cons_self)
      dsimp only
      by_cases hr : (w.obj c).readers ≠ []
      · rw [if_pos hr, if_pos hr]
        have h1 : HR m (fun w => w.mod c (fun o => { o with cmd := .monitor })) (fun w => w.mod c (fun o => { o with cmd := .monitor })) :=
          HR.mod hc _ (fun o ho => ⟨rfl, ⟨ho.nw, ho.nr⟩, rfl, rfl⟩)
        exact HR.comp (unlinkObjs_hid env hc hcon) h1 w v h
      · rw [if_neg hr, if_neg hr]
        have h1 : HR m (fun w => w.mod c (fun o => { o with cmd := .connect })) (fun w => w.mod c (fun o => { o with cmd := .connect })) :=
          HR.mod hc _ (fun o ho => ⟨rfl, ⟨ho.nw, ho.nr⟩, rfl, rfl⟩)
        exact HR.comp (linkObjs_hid env hc hcon) h1 w v h

theorem logHist_hid {m : Nat} {w v : World} (h : Hid m w v) {con : Nat} (hc : con ≠ m) (hl : con ∈ w.live) (hk : (w.obj con).kind ≠ .client) :
    v.logHist con = w.logHist con := by
  have hlg := h.lg con hc hl hk
  unfold World.logHist
  rw [h.obj con hc]
  show (w.obj con).log.bind _ = _
  cases hlog : (w.obj con).log with
  | none => rfl
  | some l =>
    have hne : l ≠ m := fun e => hlg (by rw [hlog, e])
    simp only [Option.bind_some]
    rw [h.obj l hne]
    rfl

theorem act_hid {m : Nat} {w v : World} (h : Hid m w v) (hI : LInv w) (env : Env) {c : Nat} (hc : c ≠ m) (hk : (w.obj c).kind = .client) (a : UInt8) :
    HidO m (w.act env c a) (v.act env c a) := by
  have hv := h.same hc hk
  have hnr := (h.good c hc).nr hk
  have hkm : ∀ f j, ((w.mod c (fun o => { o with force := f, join := j })).obj c).kind = .client := by
    intro f j; rw [World.mod_self]; exact hk
  have ht : ∀ f j, HidO m ((w.mod c (fun o => { o with force := f, join := j })).toggle env c)
      ((v.mod c (fun o => { o with force := f, join := j })).toggle env c) := by
    intro f j
    have h1 : HR m (fun w => w.mod c (fun o => { o with force := f, join := j })) (fun w => w.mod c (fun o => { o with force := f, join := j })) :=
      HR.mod hc _ (fun o ho => ⟨rfl, ⟨ho.nw, ho.nr⟩, rfl, rfl⟩)
    exact toggle_hid (h1 w v h) env hc (hkm f j)
  unfold World.act
  by_cases c1 : a = 0x42
  · rw [if_pos c1, if_pos c1, hv]
    exact HR.foldl' _ _ hnr (fun x hx => break1_hid hx) w v h
  rw [if_neg c1, if_neg c1]
  by_cases c2 : a = 0x44
  · rw [if_pos c2, if_pos c2, hv]
    exact HR.foldl' (fun w i => w.mod i (·.write [0x7F] false)) _ hnr (fun x hx => HR.write hx _ _) w v h
  rw [if_neg c2, if_neg c2]
  by_cases c3 : a = 0x46
  · rw [if_pos c3, if_pos c3]; exact ht _ _
  rw [if_neg c3, if_neg c3]
  by_cases c4 : a = 0x4A
  · rw [if_pos c4, if_pos c4]; exact ht _ _
  rw [if_neg c4, if_neg c4]
  by_cases c5 : a = 0x4C
  · rw [if_pos c5, if_pos c5, hv]
    cases hw : (w.obj c).writers with
    | nil => exact h
    | cons con l =>
      have hmem : con ∈ (w.obj c).writers := by rw [hw]; exact List.mem_cons_self
      have hcon : con ≠ m := fun e => (h.good c hc).nw (e ▸ hmem)
      have hrd := (hI.sym con c).2 hmem
      have hkc : (w.obj con).kind ≠ .client := by
        rcases hI.kinds con c hrd with g | g
        · rw [hk] at g; exact (nomatch g.2)
        · intro e; rw [e] at g; exact (nomatch g.1)
      dsimp only
      rw [logHist_hid h hcon (hI.live con c hrd).1 hkc]
      exact HR.write hc _ _ w v h
  rw [if_neg c5, if_neg c5]
  by_cases c6 : a = 0x4D
  · rw [if_pos c6, if_pos c6]; exact ht _ _
  rw [if_neg c6, if_neg c6]
  by_cases c7 : a = 0x51
  · rw [if_pos c7, if_pos c7]
    dsimp only
    rw [hv, h.tick]
    exact HR.mod hc (fun o => ({ o with quiet := !(w.obj c).quiet }).write
      (env.txt (if (!(w.obj c).quiet) = true then .quietOn else .quietOff) w.tick) false) (fun o ho =>
      HideOk.thenWrite (f := fun o => { o with quiet := !(w.obj c).quiet }) ⟨rfl, ⟨ho.nw, ho.nr⟩, rfl, rfl⟩ _ _) w v h
  rw [if_neg c7, if_neg c7]
  by_cases c8 : a = 0x52
  · rw [if_pos c8, if_pos c8, hv]
    exact HR.foldl' (fun w con => w.reset1 env c con) _ hnr (fun x hx => reset1_hid env c hx) w v h
  rw [if_neg c8, if_neg c8]
  by_cases c9 : a = 0x5A
  · rw [if_pos c9, if_pos c9]
    exact HR.mod hc (fun o => { o with suspend := !o.suspend, pout := o.suspend && o.fd }) (fun o ho => ⟨rfl, ⟨ho.nw, ho.nr⟩, rfl, rfl⟩) w v h
  rw [if_neg c9, if_neg c9]
  exact h

theorem acts_hid {m : Nat} (env : Env) {c : Nat} (hc : c ≠ m) (as : List UInt8) : ∀ {w v : World}, Hid m w v → WInv w → (w.obj c).kind = .client →
    HidO m (w.acts env c as) (v.acts env c as) := by
  induction as with
  | nil => intro w v h _ _; exact h
  | cons a as ih =>
    intro w v h hI hk
    refine HidO.bind (act_hid h hI.l env hc hk a) (fun x y hx hy hxy => ?_)
    obtain ⟨h1, h2⟩ := act_inv hI env c (by simp) hk a hx
    exact ih hxy h1 ((h2.kind c).trans hk)

/-- The commands of `m` itself, except `F`, `J` and `M`. -/
theorem act_self {m : Nat} {w v : World} (h : Hid m w v) (env : Env) (a : UInt8) (ha : ¬ (a = 0x46 ∨ a = 0x4A ∨ a = 0x4D)) :
    ∃ w', w.act env m a = some w' ∧ Hid m w' v := by
  have c3 : ¬ a = 0x46 := fun e => ha (Or.inl e)
  have c4 : ¬ a = 0x4A := fun e => ha (Or.inr (Or.inl e))
  have c6 : ¬ a = 0x4D := fun e => ha (Or.inr (Or.inr e))
  unfold World.act
  rw [h.rm, if_neg c3, if_neg c4, if_neg c6]
  by_cases c1 : a = 0x42
  · rw [if_pos c1]; exact ⟨w, rfl, h⟩
  rw [if_neg c1]
  by_cases c2 : a = 0x44
  · rw [if_pos c2]; exact ⟨w, rfl, h⟩
  rw [if_neg c2]
  by_cases c5 : a = 0x4C
  · rw [if_pos c5]
    cases hw : (w.obj m).writers with
    | nil => exact ⟨w, rfl, h⟩
    | cons con l => exact ⟨_, rfl, HR.swrite _ _ w v h⟩
  rw [if_neg c5]
  by_cases c7 : a = 0x51
  · rw [if_pos c7]
    exact ⟨_, rfl, HR.self (fun o => ({ o with quiet := !(w.obj m).quiet }).write
      (env.txt (if (!(w.obj m).quiet) = true then .quietOn else .quietOff) w.tick) false)
      (fun o => write_kind_ _ _ _) (fun o => Obj.write_readers _ _ _) w v h⟩
  rw [if_neg c7]
  by_cases c8 : a = 0x52
  · rw [if_pos c8]; exact ⟨w, rfl, h⟩
  rw [if_neg c8]
  by_cases c9 : a = 0x5A
  · rw [if_pos c9]
    exact ⟨_, rfl, HR.self (fun o => { o with suspend := !o.suspend, pout := o.suspend && o.fd }) (fun _ => rfl) (fun _ => rfl) w v h⟩
  rw [if_neg c9]
  exact ⟨w, rfl, h⟩

theorem acts_self {m : Nat} (env : Env) (as : List UInt8) : ∀ {w v : World}, Hid m w v → (∀ a ∈ as, ¬ (a = 0x46 ∨ a = 0x4A ∨ a = 0x4D)) →
    ∃ w', w.acts env m as = some w' ∧ Hid m w' v := by
  induction as with
  | nil => intro w v h _; exact ⟨w, rfl, h⟩
  | cons a as ih =>
    intro w v h ha
    obtain ⟨w1, h1, h2⟩ := act_self h env a (ha a List.mem_cons_self)
    obtain ⟨w2, h3, h4⟩ := ih h2 (fun b hb => ha b (List.mem_cons_of_mem _ hb))
    exact ⟨w2, by rw [World.acts, h1]; exact h3, h4⟩

theorem give_hid {m} (env : Env) (d : List UInt8) {i : Nat} (hi : i ≠ m) : HR m (fun w => w.give env d i) (fun w => w.give env d i) := by
  refine HR.mod hi _ (fun o ho => ?_)
  by_cases hk : o.kind = .logfile
  · have h1 := HideOk.writeLog ho (env.clk i) d
    have hk' : (hide m o).kind = .logfile := hk
    refine ⟨?_, ?_, ?_, ?_⟩
    · rw [if_pos hk, if_pos hk']; exact h1.hide
    · rw [if_pos hk]; exact h1.good
    · rw [if_pos hk]; exact h1.kind
    · rw [if_pos hk]; exact h1.log
  · have h1 := HideOk.write ho d false
    have hk' : ¬ (hide m o).kind = .logfile := hk
    refine ⟨?_, ?_, ?_, ?_⟩
    · rw [if_neg hk, if_neg hk']; exact h1.hide
    · rw [if_neg hk]; exact h1.good
    · rw [if_neg hk]; exact h1.kind
    · rw [if_neg hk]; exact h1.log

theorem give_self {m} (env : Env) (d : List UInt8) : HR m (fun w => w.give env d m) (fun w => w) := by
  intro w v h
  have e : w.give env d m = w.mod m (·.write d false) := by
    unfold World.give World.mod
    congr 1
    funext j
    by_cases hj : j = m
    · rw [if_pos hj, if_pos hj]
      have : ¬ (w.obj j).kind = .logfile := by rw [hj, h.km]; simp
      exact if_neg this
    · rw [if_neg hj, if_neg hj]
  show Hid m (w.give env d m) v
  rw [e]
  exact HR.swrite d false w v h

theorem deliver_hid {m} (env : Env) (d : List UInt8) {i : Nat} (hi : i ≠ m) : HR m (fun w => w.deliver env i d) (fun w => w.deliver env i d) := by
  refine HR.ite _ (HR.id' m) ?_
  refine HR.get hi (fun o w => o.readers.foldl (fun w i => w.give env d i) w) (fun o _ => ?_)
  exact HR.foldl _ _ (fun x hx => give_hid env d hx) (give_self env d)

theorem shutdown_hid {m} (env : Env) (up : Bool) {i : Nat} (hi : i ≠ m) : HR m (fun w => w.shutdown env up i) (fun w => w.shutdown env up i) := by
  refine (HR.get hi (fun o0 w => if o0.fd = false then w else
    (fun (w1 : World) => match (w1.obj i).kind with
    | .client => { (w1.unlinkObj env i) with live := w1.live.filter (fun j => j ≠ i) }
    | .logfile => w1
    | .serial =>
      if up then (w1.mod i (fun o => { o with fd := up, pin := up })).notify env i (.connected i)
      else w1.mod i (fun o => { o with fd := up, pin := up })
    | .test => w1.mod i (fun o => { o with fd := up, pin := up })
    | _ => (w1.mod i (fun o => { o with conn := .down })).notify env i (.disconnected i)) (w.mod i (fun o =>
      { o with fd := false, pin := false, pout := false, pend := [], eof := false, gen := o.gen + 1, hist := o.hist ++ [none] })))
    (fun o _ => ?_)).congr (fun _ => rfl)
  refine HR.ite _ (HR.id' m) (HR.comp (g := fun (w1 : World) => match (w1.obj i).kind with
    | .client => { (w1.unlinkObj env i) with live := w1.live.filter (fun j => j ≠ i) }
    | .logfile => w1
    | .serial =>
      if up then (w1.mod i (fun o => { o with fd := up, pin := up })).notify env i (.connected i)
      else w1.mod i (fun o => { o with fd := up, pin := up })
    | .test => w1.mod i (fun o => { o with fd := up, pin := up })
    | _ => (w1.mod i (fun o => { o with conn := .down })).notify env i (.disconnected i))
    (g' := fun (w1 : World) => match (w1.obj i).kind with
    | .client => { (w1.unlinkObj env i) with live := w1.live.filter (fun j => j ≠ i) }
    | .logfile => w1
    | .serial =>
      if up then (w1.mod i (fun o => { o with fd := up, pin := up })).notify env i (.connected i)
      else w1.mod i (fun o => { o with fd := up, pin := up })
    | .test => w1.mod i (fun o => { o with fd := up, pin := up })
    | _ => (w1.mod i (fun o => { o with conn := .down })).notify env i (.disconnected i)) ?_
      (HR.mod hi _ (fun o ho => ⟨rfl, ⟨ho.nw, ho.nr⟩, rfl, rfl⟩)))
  refine HR.get hi (fun o (w1 : World) => match o.kind with
    | .client => { (w1.unlinkObj env i) with live := w1.live.filter (fun j => j ≠ i) }
    | .logfile => w1
    | .serial =>
      if up then (w1.mod i (fun o => { o with fd := up, pin := up })).notify env i (.connected i)
      else w1.mod i (fun o => { o with fd := up, pin := up })
    | .test => w1.mod i (fun o => { o with fd := up, pin := up })
    | _ => (w1.mod i (fun o => { o with conn := .down })).notify env i (.disconnected i)) (fun o _ => ?_)
  show HR m _ (fun (w1 : World) => match o.kind with
    | .client => { (w1.unlinkObj env i) with live := w1.live.filter (fun j => j ≠ i) }
    | .logfile => w1
    | .serial =>
      if up then (w1.mod i (fun o => { o with fd := up, pin := up })).notify env i (.connected i)
      else w1.mod i (fun o => { o with fd := up, pin := up })
    | .test => w1.mod i (fun o => { o with fd := up, pin := up })
    | _ => (w1.mod i (fun o => { o with conn := .down })).notify env i (.disconnected i))
  have hm : ∀ u : Bool, HR m (fun w1 : World => w1.mod i (fun o => { o with fd := u, pin := u })) (fun w1 : World => w1.mod i (fun o => { o with fd := u, pin := u })) :=
    fun u => HR.mod hi _ (fun o ho => ⟨rfl, ⟨ho.nw, ho.nr⟩, rfl, rfl⟩)
  have hx : HR m (fun w1 : World => (w1.mod i (fun o => { o with conn := .down })).notify env i (.disconnected i))
      (fun w1 : World => (w1.mod i (fun o => { o with conn := .down })).notify env i (.disconnected i)) :=
    HR.comp (notify_hid env _ hi) (HR.mod hi _ (fun o ho => ⟨rfl, ⟨ho.nw, ho.nr⟩, rfl, rfl⟩))
  cases o.kind with
  | client =>
    intro w v h
    have h1 := unlinkObj_hid (m := m) env hi w v h
    refine ⟨h1.obj, h1.good, fun j hj hl => ?_, h1.km, h1.rm, ?_, h1.tick, h1.running, h1.wait, h1.fx⟩
    · exact h1.lg j hj (by rw [unlinkObj_live']; exact (List.mem_filter.1 hl).1)
    · show v.live.filter (· ≠ i) = (w.live.filter (· ≠ i)).filter (· ≠ m)
      rw [h.live, filter_comm']
  | logfile => exact HR.id' m
  | serial => exact HR.ite _ (HR.comp (notify_hid env _ hi) (hm up)) (hm up)
  | test => exact hm up
  | process => exact hx
  | telnet => exact hx
  | ipmi => exact hx
  | unixsock => exact hx

/-- Who writes to `m` are consoles. -/
theorem writers_consoles {m : Nat} {w : World} (hI : LInv w) (hk : (w.obj m).kind = .client) :
    ∀ x ∈ (w.obj m).writers, x ≠ m ∧ (w.obj x).kind ≠ .client := by
  intro x hx
  have hrd := (hI.sym x m).2 hx
  have hkc : (w.obj x).kind ≠ .client := by
    rcases hI.kinds x m hrd with g | g
    · rw [hk] at g; exact (nomatch g.2)
    · intro e; rw [e] at g; exact (nomatch g.1)
  exact ⟨fun e => hkc (e ▸ hk), hkc⟩

theorem shutdown_self {m : Nat} {w v : World} (h : Hid m w v) (hI : LInv w) (env : Env) (up : Bool) : Hid m (w.shutdown env up m) v := by
  unfold World.shutdown
  by_cases hf : (w.obj m).fd = false
  · rw [if_pos hf]; exact h
  rw [if_neg hf]
  dsimp only
  have h1 : Hid m (w.mod m (fun o =>
      { o with fd := false, pin := false, pout := false, pend := [], eof := false, gen := o.gen + 1, hist := o.hist ++ [none] })) v :=
    HR.self (fun o =>
      { o with fd := false, pin := false, pout := false, pend := [], eof := false, gen := o.gen + 1, hist := o.hist ++ [none] })
      (fun _ => rfl) (fun _ => rfl) w v h
  have hwc := writers_consoles hI h.km
  have hw : ∀ x ∈ ((w.mod m (fun o =>
      { o with fd := false, pin := false, pout := false, pend := [], eof := false, gen := o.gen + 1, hist := o.hist ++ [none] })).obj m).writers,
      x ≠ m ∧ ((w.mod m (fun o =>
      { o with fd := false, pin := false, pout := false, pend := [], eof := false, gen := o.gen + 1, hist := o.hist ++ [none] })).obj x).kind ≠ .client := by
    intro x hx
    rw [World.mod_self] at hx
    obtain ⟨a, b⟩ := hwc x hx
    rw [World.mod_ne _ _ a]
    exact ⟨a, b⟩
  revert h1 hw
  generalize (w.mod m (fun o =>
      { o with fd := false, pin := false, pout := false, pend := [], eof := false, gen := o.gen + 1, hist := o.hist ++ [none] })) = w1
  intro h1 hw
  rw [h1.km]
  dsimp only
  have h2 := unlinkObj_absorb env h1 hw
  refine ⟨h2.obj, h2.good, fun j hj hl => ?_, h2.km, h2.rm, ?_, h2.tick, h2.running, h2.wait, h2.fx⟩
  · exact h2.lg j hj (by rw [unlinkObj_live']; exact (List.mem_filter.1 hl).1)
  · show v.live = (w1.live.filter (· ≠ m)).filter (· ≠ m)
    rw [h1.live, List.filter_filter]
    simp only [Bool.and_self]


theorem read_hid {m : Nat} {w v : World} (h : Hid m w v) (hI : WInv w) (env : Env) (up : Bool) {i : Nat} (hi : i ≠ m) (r : ReadRes) :
    HidO m (w.read env up i r) (v.read env up i r) := by
  unfold World.read
  rw [h.obj i hi]
  show HidO m _ (if (w.obj i).fd = false then some v
    else if (w.obj i).kind = .telnet ∧ (w.obj i).conn ≠ .up then some v
    else
      match (if (w.obj i).kind = .logfile then .err else r : ReadRes) with
      | .again => some v
      | .err => some (v.shutdown env up i)
      | .eof =>
        let w1 := v.mod i (fun o => { o with eof := true, pin := false })
        some (if (w1.obj i).pend = [] then w1.shutdown env up i else w1)
      | .data d0 =>
        let d := d0.take readBufSize
        match (w.obj i).kind with
        | .client =>
          let u := processClientEscapes (w.obj i).gotEscape d
          (v.acts env i u.acts).map (fun w =>
            (w.mod i (fun o => { o with gotEscape := u.gotEscape })).deliver env i u.data)
        | .telnet =>
          (processTelnetEscapes (w.obj i).iac d).map (fun t =>
            (v.mod i (fun o => ({ o with iac := t.iac }).write t.sent false)).deliver env i
              (t.buf.take t.len))
        | _ => some (v.deliver env i d))
  by_cases c1 : (w.obj i).fd = false
  · rw [if_pos c1, if_pos c1]; exact h
  rw [if_neg c1, if_neg c1]
  by_cases c2 : (w.obj i).kind = .telnet ∧ (w.obj i).conn ≠ .up
  · rw [if_pos c2, if_pos c2]; exact h
  rw [if_neg c2, if_neg c2]
  cases (if (w.obj i).kind = .logfile then .err else r : ReadRes) with
  | again => exact h
  | err => exact shutdown_hid env up hi w v h
  | eof =>
    have h1 : HR m (fun w => w.mod i (fun o => { o with eof := true, pin := false })) (fun w => w.mod i (fun o => { o with eof := true, pin := false })) :=
      HR.mod hi _ (fun o ho => ⟨rfl, ⟨ho.nw, ho.nr⟩, rfl, rfl⟩)
    have h2 : HR m (fun w1 : World => if (w1.obj i).pend = [] then w1.shutdown env up i else w1)
      (fun w1 : World => if (w1.obj i).pend = [] then w1.shutdown env up i else w1) :=
      HR.get hi (fun o w1 => if o.pend = [] then w1.shutdown env up i else w1) (fun o _ =>
        HR.ite _ (shutdown_hid env up hi) (HR.id' m))
    exact HR.comp h2 h1 w v h
  | data d0 =>
    have hd := deliver_hid (m := m) env (d0.take readBufSize) hi w v h
    dsimp only
    cases hk : (w.obj i).kind with
    | client =>
      refine HidO.map (acts_hid env hi _ h hI hk) (fun x y _ _ hxy => ?_)
      have h1 : HR m (fun w => w.mod i (fun o' => { o' with gotEscape := (processClientEscapes (w.obj i).gotEscape (d0.take readBufSize)).gotEscape }))
        (fun w => w.mod i (fun o' => { o' with gotEscape := (processClientEscapes (w.obj i).gotEscape (d0.take readBufSize)).gotEscape })) := by
        refine HR.get hi (fun o w => w.mod i (fun o' => { o' with gotEscape := (processClientEscapes o.gotEscape (d0.take readBufSize)).gotEscape })) (fun o _ => ?_)
        exact HR.mod hi _ (fun o ho => ⟨rfl, ⟨ho.nw, ho.nr⟩, rfl, rfl⟩)
      have h2 : ∀ g : Bool, HR m (fun w => w.mod i (fun o' => { o' with gotEscape := g })) (fun w => w.mod i (fun o' => { o' with gotEscape := g })) :=
        fun g => HR.mod hi _ (fun o ho => ⟨rfl, ⟨ho.nw, ho.nr⟩, rfl, rfl⟩)
      exact HR.comp (deliver_hid env _ hi) (h2 _) x y hxy
    | telnet =>
      cases ht : processTelnetEscapes (w.obj i).iac (d0.take readBufSize) with
      | none => trivial
      | some t =>
        have h1 : HR m (fun w => w.mod i (fun o => ({ o with iac := t.iac }).write t.sent false))
          (fun w => w.mod i (fun o => ({ o with iac := t.iac }).write t.sent false)) :=
          HR.mod hi _ (fun o ho => HideOk.thenWrite (f := fun o => { o with iac := t.iac })
            ⟨rfl, ⟨ho.nw, ho.nr⟩, rfl, rfl⟩ _ _)
        exact HR.comp (deliver_hid env _ hi) h1 w v h
    | logfile => exact hd
    | process => exact hd
    | serial => exact hd
    | ipmi => exact hd
    | unixsock => exact hd
    | test => exact hd

/-- The codes acted upon follow an escape byte. -/
theorem unescLoop_codes (n : Nat) : ∀ (buf : List UInt8) (p q : Nat) (esc : Bool) (acts : List UInt8), buf.length - p ≤ n → q ≤ p →
    (∀ pe : Bool, (esc = true → pe = true) → noModeCode pe (buf.drop p) = true →
      (∀ a ∈ acts, ¬ (a = 0x46 ∨ a = 0x4A ∨ a = 0x4D)) →
      ∀ a ∈ (unescLoop buf p q esc acts).acts, ¬ (a = 0x46 ∨ a = 0x4A ∨ a = 0x4D)) := by
  induction n with
  | zero =>
    intro buf p q esc acts hn hq pe _ _ ha
    unfold unescLoop
    rw [dif_neg (by omega)]
    exact ha
  | succ n ih =>
    intro buf p q esc acts hn hq pe he hc ha
    unfold unescLoop
    by_cases hp : p < buf.length
    · rw [dif_pos hp]
      rw [List.drop_eq_getElem_cons hp] at hc
      unfold noModeCode at hc
      rw [Bool.and_eq_true] at hc
      obtain ⟨hc1, hc2⟩ := hc
      have hset : ∀ c, (buf.set q c).drop (p + 1) = buf.drop (p + 1) := fun c => List.drop_set_of_lt (by omega)
      dsimp only
      by_cases h1 : esc = true
      · rw [if_pos h1]
        have hpe := he h1
        subst hpe
        by_cases h2 : buf[p] = escChar
        · rw [if_pos h2]
          refine ih _ _ _ _ _ (by simp only [List.length_set]; omega) (by omega) (decide (buf[p] = 0xFF)) (fun h => nomatch h) ?_ ha
          rw [hset]; exact hc2
        · rw [if_neg h2]
          refine ih _ _ _ _ _ (by omega) (by omega) (decide (buf[p] = 0xFF)) (fun h => nomatch h) hc2 ?_
          intro a hm
          rcases List.mem_append.1 hm with hm | hm
          · exact ha a hm
          · rw [List.mem_singleton.1 hm]
            simpa [not_or, and_assoc] using hc1
      · rw [if_neg h1]
        by_cases h2 : buf[p] = escChar
        · rw [if_pos h2]
          refine ih _ _ _ _ _ (by omega) (by omega) (decide (buf[p] = 0xFF)) (fun _ => ?_) hc2 ha
          rw [h2]; rfl
        · rw [if_neg h2]
          refine ih _ _ _ _ _ (by simp only [List.length_set]; omega) (by omega) (decide (buf[p] = 0xFF)) (fun h => nomatch h) ?_ ha
          rw [hset]; exact hc2
    · rw [dif_neg hp]; exact ha

theorem noModeCode_take : ∀ (d : List UInt8) (p : Bool) (n : Nat), noModeCode p d = true → noModeCode p (d.take n) = true
  | [], p, n, _ => by cases n <;> rfl
  | b :: d, p, 0, _ => rfl
  | b :: d, p, n + 1, h => by
    unfold noModeCode at h
    rw [Bool.and_eq_true] at h
    show (_ && noModeCode _ (d.take n)) = true
    rw [Bool.and_eq_true]
    exact ⟨h.1, noModeCode_take d _ n h.2⟩

theorem read_hself {m : Nat} {w v : World} (h : Hid m w v) (hI : LInv w) (env : Env) (up : Bool) (r : ReadRes)
    (hr : ∀ d, r = .data d → noModeCode true d = true) : ∃ w', w.read env up m r = some w' ∧ Hid m w' v := by
  unfold World.read
  have hk := h.km
  have hkl : ¬ (w.obj m).kind = .logfile := by rw [hk]; simp
  have hkt : ¬ ((w.obj m).kind = .telnet ∧ (w.obj m).conn ≠ .up) := by rw [hk]; simp
  rw [if_neg hkl, if_neg hkt]
  by_cases c1 : (w.obj m).fd = false
  · rw [if_pos c1]; exact ⟨w, rfl, h⟩
  rw [if_neg c1]
  cases r with
  | again => exact ⟨w, rfl, h⟩
  | err => exact ⟨_, rfl, shutdown_self h hI env up⟩
  | eof =>
    have h1 : Hid m (w.mod m (fun o => { o with eof := true, pin := false })) v :=
      HR.self (fun o => { o with eof := true, pin := false }) (fun _ => rfl) (fun _ => rfl) w v h
    have hI1 : LInv (w.mod m (fun o => { o with eof := true, pin := false })) := by
      have e : ∀ j, ((w.mod m (fun o => { o with eof := true, pin := false })).obj j).readers = (w.obj j).readers ∧
        ((w.mod m (fun o => { o with eof := true, pin := false })).obj j).writers = (w.obj j).writers ∧
        ((w.mod m (fun o => { o with eof := true, pin := false })).obj j).kind = (w.obj j).kind := by
        intro j
        by_cases hj : j = m
        · subst hj; rw [World.mod_self]; exact ⟨rfl, rfl, rfl⟩
        · rw [World.mod_ne _ _ hj]; exact ⟨rfl, rfl, rfl⟩
      refine ⟨fun a b => ?_, fun a b hh => ?_, fun a => ?_, fun a => ?_, fun a b hh => ?_⟩
      · rw [(e a).1, (e b).2.1]; exact hI.sym a b
      · rw [(e a).1] at hh; rw [(e a).2.2, (e b).2.2]; exact hI.kinds a b hh
      · rw [(e a).1]; exact hI.ndR a
      · rw [(e a).2.1]; exact hI.ndW a
      · rw [(e a).1] at hh; exact hI.live a b hh
    dsimp only
    refine ⟨_, rfl, ?_⟩
    by_cases hp : ((w.mod m (fun o => { o with eof := true, pin := false })).obj m).pend = []
    · rw [if_pos hp]; exact shutdown_self h1 hI1 env up
    · rw [if_neg hp]; exact h1
  | data d0 =>
    dsimp only
    rw [hk]
    dsimp only
    have hc : ∀ a ∈ (processClientEscapes (w.obj m).gotEscape (d0.take readBufSize)).acts, ¬ (a = 0x46 ∨ a = 0x4A ∨ a = 0x4D) :=
      unescLoop_codes _ _ 0 0 _ [] (Nat.le_refl _) (Nat.le_refl _) true (fun _ => rfl)
        (by rw [List.drop_zero]; exact noModeCode_take _ _ _ (hr d0 rfl)) (fun a ha => nomatch ha)
    obtain ⟨w1, h1, h2⟩ := acts_self env _ h hc
    rw [h1]
    refine ⟨_, rfl, ?_⟩
    have h3 : Hid m (w1.mod m (fun o => { o with gotEscape := (processClientEscapes (w.obj m).gotEscape (d0.take readBufSize)).gotEscape })) v :=
      HR.self (fun o => { o with gotEscape := (processClientEscapes (w.obj m).gotEscape (d0.take readBufSize)).gotEscape }) (fun _ => rfl) (fun _ => rfl) w1 v h2
    have h4 : (w1.mod m (fun o => { o with gotEscape := (processClientEscapes (w.obj m).gotEscape (d0.take readBufSize)).gotEscape })).deliver env m
        (processClientEscapes (w.obj m).gotEscape (d0.take readBufSize)).data =
        w1.mod m (fun o => { o with gotEscape := (processClientEscapes (w.obj m).gotEscape (d0.take readBufSize)).gotEscape }) := by
      unfold World.deliver
      rw [h3.rm]
      simp only [List.foldl_nil, ite_self]
    dsimp only at h4 ⊢
    rw [h4]; exact h3

theorem push_hid {m} {i : Nat} (hi : i ≠ m) (n : Nat) : HR m (fun w => w.push i n) (fun w => w.push i n) := by
  refine HR.get hi (fun o w => ({ w with fx := if n = 0 then w.fx else w.fx ++ [.sent i (o.pend.take n)] } : World).mod i
    (fun o => { o with pend := o.pend.drop n })) (fun o _ => ?_)
  have h1 : HR m (fun w => w.mod i (fun o => { o with pend := o.pend.drop n })) (fun w => w.mod i (fun o => { o with pend := o.pend.drop n })) :=
    HR.mod hi _ (fun o ho => ⟨rfl, ⟨ho.nw, ho.nr⟩, rfl, rfl⟩)
  by_cases hn : n = 0
  · simp only [if_pos hn]; exact h1
  · simp only [if_neg hn]
    exact HR.comp h1 (HR.fx (.sent i (o.pend.take n)))

theorem drained_hid {m} {i : Nat} (hi : i ≠ m) : HR m (fun w => w.drained i) (fun w => w.drained i) :=
  HR.get hi (fun o w => if o.pend = [] then w.mod i (fun o => { o with pout := false }) else w) (fun o _ =>
    HR.ite _ (HR.mod hi _ (fun o ho => ⟨rfl, ⟨ho.nw, ho.nr⟩, rfl, rfl⟩)) (HR.id' m))

theorem flush_hid {m} (env : Env) (up : Bool) {i : Nat} (hi : i ≠ m) (r : WriteRes) : HR m (fun w => w.flush env up i r) (fun w => w.flush env up i r) := by
  refine (HR.get hi (fun o w => if o.fd = false then w else if o.kind = .telnet ∧ o.conn = .pending then w else
    if (r = .err ∧ o.pend ≠ []) ∨ ((((w.push i (r.count o.pend.length)).drained i).obj i).pend = [] ∧ o.eof) then
      ((w.push i (r.count o.pend.length)).drained i).shutdown env up i
    else (w.push i (r.count o.pend.length)).drained i) (fun o _ => ?_)).congr (fun _ => rfl)
  refine HR.ite _ (HR.id' m) (HR.ite _ (HR.id' m) ?_)
  have h1 : HR m (fun w => (w.push i (r.count o.pend.length)).drained i) (fun w => (w.push i (r.count o.pend.length)).drained i) :=
    HR.comp (drained_hid hi) (push_hid hi _)
  have h2 : HR m (fun w1 : World => if (r = .err ∧ o.pend ≠ []) ∨ ((w1.obj i).pend = [] ∧ o.eof) then
      w1.shutdown env up i else w1) (fun w1 : World => if (r = .err ∧ o.pend ≠ []) ∨ ((w1.obj i).pend = [] ∧ o.eof) then
      w1.shutdown env up i else w1) :=
    HR.get hi (fun o1 w1 => if (r = .err ∧ o.pend ≠ []) ∨ (o1.pend = [] ∧ o.eof) then w1.shutdown env up i else w1) (fun o1 _ =>
      HR.ite _ (shutdown_hid env up hi) (HR.id' m))
  exact HR.comp h2 h1

theorem LInv.keepObj {w : World} (hI : LInv w) (w' : World) (e : ∀ j, (w'.obj j).readers = (w.obj j).readers ∧ (w'.obj j).writers = (w.obj j).writers ∧ (w'.obj j).kind = (w.obj j).kind)
    (el : w'.live = w.live) : LInv w' := by
  refine ⟨fun a b => ?_, fun a b hh => ?_, fun a => ?_, fun a => ?_, fun a b hh => ?_⟩
  · rw [(e a).1, (e b).2.1]; exact hI.sym a b
  · rw [(e a).1] at hh; rw [(e a).2.2, (e b).2.2]; exact hI.kinds a b hh
  · rw [(e a).1]; exact hI.ndR a
  · rw [(e a).2.1]; exact hI.ndW a
  · rw [(e a).1] at hh; rw [el]; exact hI.live a b hh

theorem flush_hself {m : Nat} {w v : World} (h : Hid m w v) (hI : LInv w) (env : Env) (up : Bool) (r : WriteRes) : Hid m (w.flush env up m r) v := by
  have hp : ∀ n, Hid m (w.push m n) v := by
    intro n
    have h0 : Hid m ({ w with fx := if n = 0 then w.fx else w.fx ++ [.sent m ((w.obj m).pend.take n)] } : World) v := by
      refine ⟨h.obj, h.good, h.lg, h.km, h.rm, h.live, h.tick, h.running, h.wait, ?_⟩
      rw [h.fx]
      by_cases hn : n = 0
      · simp only [if_pos hn]
      · simp only [if_neg hn, List.filter_append]
        simp [isSentTo]
    exact HR.self (fun o => { o with pend := o.pend.drop n }) (fun _ => rfl) (fun _ => rfl) _ v h0
  have hpe : ∀ n j, ((w.push m n).obj j).readers = (w.obj j).readers ∧ ((w.push m n).obj j).writers = (w.obj j).writers ∧ ((w.push m n).obj j).kind = (w.obj j).kind := by
    intro n j
    unfold World.push
    by_cases hj : j = m
    · subst hj; rw [World.mod_self]; exact ⟨rfl, rfl, rfl⟩
    · rw [World.mod_ne _ _ hj]; exact ⟨rfl, rfl, rfl⟩
  have hd : ∀ x : World, Hid m x v → LInv x → Hid m (x.drained m) v ∧ LInv (x.drained m) := by
    intro x hx hIx
    unfold World.drained
    by_cases c : (x.obj m).pend = []
    · rw [if_pos c]
      refine ⟨HR.self (fun o => { o with pout := false }) (fun _ => rfl) (fun _ => rfl) x v hx, hIx.keepObj _ (fun j => ?_) rfl⟩
      by_cases hj : j = m
      · subst hj; rw [World.mod_self]; exact ⟨rfl, rfl, rfl⟩
      · rw [World.mod_ne _ _ hj]; exact ⟨rfl, rfl, rfl⟩
    · rw [if_neg c]; exact ⟨hx, hIx⟩
  unfold World.flush
  dsimp only
  by_cases c1 : (w.obj m).fd = false
  · rw [if_pos c1]; exact h
  rw [if_neg c1]
  by_cases c2 : (w.obj m).kind = .telnet ∧ (w.obj m).conn = .pending
  · rw [if_pos c2]; exact h
  rw [if_neg c2]
  obtain ⟨a, b⟩ := hd _ (hp (r.count (w.obj m).pend.length)) (hI.keepObj _ (hpe _) rfl)
  by_cases c3 : (r = .err ∧ (w.obj m).pend ≠ []) ∨ ((((w.push m (r.count (w.obj m).pend.length)).drained m).obj m).pend = [] ∧ (w.obj m).eof = true)
  · rw [if_pos c3]; exact shutdown_self a b env up
  · rw [if_neg c3]; exact a

theorem checkState_hid {m} (env : Env) {c con : Nat} (hc : c ≠ m) (hn : con ≠ m) : HR m (fun w => w.checkState env c con) (fun w => w.checkState env c con) :=
  HR.get hn (fun o w => if o.isUp then w else w.note env (.isDown con) c) (fun o _ =>
    HR.ite _ (HR.id' m) (note_hid env _ hc))

theorem newClient_hid {m} {c : Nat} (hc : c ≠ m) (q : Req) : HR m (fun w => w.newClient c q) (fun w => w.newClient c q) := by
  intro w v h
  have e1 : ∀ (w : World) j, j ≠ c → (w.newClient c q).obj j = w.obj j := fun w j hj => World.mod_ne _ _ hj
  have e2 : ∀ (w : World), (w.newClient c q).obj c = { kind := .client, fd := true, pin := true, quiet := q.quiet, force := q.force, join := q.join, bcast := q.bcast, cmd := q.cmd, gen := (w.obj c).gen } :=
    fun w => World.mod_self _ _ _
  refine ⟨fun j hj => ?_, fun j hj => ?_, fun j hj hl hk => ?_, ?_, ?_, ?_, h.tick, h.running, h.wait, h.fx⟩
  · by_cases e : j = c
    · subst e; rw [e2, e2, h.obj j hj]; rfl
    · rw [e1 _ _ e, e1 _ _ e]; exact h.obj j hj
  · by_cases e : j = c
    · subst e; rw [e2]; exact ⟨fun h => (nomatch h), fun _ h => (nomatch h)⟩
    · rw [e1 _ _ e]; exact h.good j hj
  · by_cases e : j = c
    · subst e; rw [e2] at hk; exact absurd rfl hk
    · rw [e1 _ _ e] at hk ⊢
      refine h.lg j hj ?_ hk
      rcases List.mem_append.1 (show j ∈ w.live ++ [c] from hl) with g | g
      · exact g
      · exact absurd (List.mem_singleton.1 g) e
  · rw [e1 _ _ (Ne.symm hc)]; exact h.km
  · rw [e1 _ _ (Ne.symm hc)]; exact h.rm
  · show v.live ++ [c] = (w.live ++ [c]).filter (· ≠ m)
    rw [List.filter_append, h.live, List.filter_cons_of_pos (by simpa using hc)]; rfl

theorem grant_hid {m} (env : Env) {c : Nat} (hc : c ≠ m) (q : Req) (hq : m ∉ q.consoles) : HR m (fun w => w.grant env c q) (fun w => w.grant env c q) := by
  have hn := newClient_hid (m := m) hc q
  have hl : ∀ con, con ≠ m → HR m (fun w => (w.linkObjs env c con).checkState env c con) (fun w => (w.linkObjs env c con).checkState env c con) := fun con h =>
    HR.comp (checkState_hid env hc h) (linkObjs_hid env hc h)
  unfold World.grant
  cases hcmd : q.cmd with
  | monitor =>
    cases hcs : q.consoles with
    | nil => exact hn
    | cons con l =>
      have h : con ≠ m := fun e => hq (by rw [hcs, e]; exact List.mem_cons_self)
      exact HR.comp (checkState_hid env hc h) (HR.comp (linkObjs_hid env h hc) hn)
  | connect =>
    cases hcs : q.consoles with
    | nil => exact hn
    | cons con l =>
      have h : con ≠ m := fun e => hq (by rw [hcs, e]; exact List.mem_cons_self)
      cases l with
      | nil =>
        exact HR.comp (checkState_hid env hc h) (HR.comp (linkObjs_hid env h hc) (HR.comp (linkObjs_hid env hc h) hn))
      | cons con2 l => exact HR.comp (HR.foldl' _ _ (by rw [← hcs]; exact hq) hl) hn

theorem connUp_hid {m} (env : Env) {i : Nat} (hi : i ≠ m) : HR m (fun w => w.connUp env i) (fun w => w.connUp env i) := by
  refine (HR.get hi (fun o w => if o.kind.isConsole = false then w else if o.fd ∧ ¬ o.conn = .pending then w else
    if o.kind = .telnet then
      (if o.kind = .test then w.mod i (fun o => { o with fd := true, pin := true, conn := .up, eof := false })
        else (w.mod i (fun o => { o with fd := true, pin := true, conn := .up, eof := false })).notify env i (.connected i)).mod i
          (·.write telHello false)
    else if o.kind = .test then w.mod i (fun o => { o with fd := true, pin := true, conn := .up, eof := false })
        else (w.mod i (fun o => { o with fd := true, pin := true, conn := .up, eof := false })).notify env i (.connected i))
    (fun o _ => ?_)).congr (fun _ => rfl)
  have h1 : HR m (fun w => w.mod i (fun o => { o with fd := true, pin := true, conn := .up, eof := false }))
    (fun w => w.mod i (fun o => { o with fd := true, pin := true, conn := .up, eof := false })) :=
    HR.mod hi _ (fun o ho => ⟨rfl, ⟨ho.nw, ho.nr⟩, rfl, rfl⟩)
  have h2 : HR m (fun w => if o.kind = .test then w.mod i (fun o => { o with fd := true, pin := true, conn := .up, eof := false })
        else (w.mod i (fun o => { o with fd := true, pin := true, conn := .up, eof := false })).notify env i (.connected i))
      (fun w => if o.kind = .test then w.mod i (fun o => { o with fd := true, pin := true, conn := .up, eof := false })
        else (w.mod i (fun o => { o with fd := true, pin := true, conn := .up, eof := false })).notify env i (.connected i)) :=
    HR.ite _ h1 (HR.comp (notify_hid env _ hi) h1)
  have h3 : HR m (fun w => w.mod i (·.write telHello false)) (fun w => w.mod i (·.write telHello false)) := HR.write hi _ _
  exact HR.ite _ (HR.id' m) (HR.ite _ (HR.id' m) (HR.ite _ (HR.comp h3 h2) h2))


theorem reqOk_hid {m : Nat} {w v : World} (h : Hid m w v) (q : Req) : (w.reqOk q ↔ v.reqOk q) ∧ (w.reqOk q → v.validate q = w.validate q) := by
  have hne : w.reqOk q → m ∉ q.consoles := by
    intro hq hm
    have := (hq.2 m hm).2
    rw [h.km] at this
    exact (nomatch this)
  have hne' : v.reqOk q → m ∉ q.consoles := by
    intro hq hm
    have := (hq.2 m hm).1
    rw [h.live] at this
    simp at this
  have hk : ∀ x, x ≠ m → (v.obj x).kind = (w.obj x).kind ∧ (v.obj x).writers = (w.obj x).writers := by
    intro x hx; rw [h.obj x hx]; exact ⟨rfl, rfl⟩
  refine ⟨⟨fun hq => ⟨hq.1, fun x hx => ?_⟩, fun hq => ⟨hq.1, fun x hx => ?_⟩⟩, fun hq => ?_⟩
  · have hxm : x ≠ m := fun e => hne hq (e ▸ hx)
    rw [h.mem hxm, (hk x hxm).1]; exact hq.2 x hx
  · have hxm : x ≠ m := fun e => hne' hq (e ▸ hx)
    have := hq.2 x hx
    rw [h.mem hxm, (hk x hxm).1] at this; exact this
  · have e : q.consoles.any (fun c => !(v.obj c).writers.isEmpty) = q.consoles.any (fun c => !(w.obj c).writers.isEmpty) := by
      rw [Bool.eq_iff_iff, List.any_eq_true, List.any_eq_true]
      constructor
      · rintro ⟨x, hx, hy⟩
        refine ⟨x, hx, ?_⟩
        rw [(hk x (fun e => hne hq (e ▸ hx))).2] at hy; exact hy
      · rintro ⟨x, hx, hy⟩
        refine ⟨x, hx, ?_⟩
        rw [(hk x (fun e => hne hq (e ▸ hx))).2]; exact hy
    unfold World.validate
    rw [e]

theorem poll_self {m : Nat} {w v : World} (h : Hid m w v) (hI : WInv w) (env : Env) (up : Bool) (rd : Option ReadRes) (wr : Option WriteRes)
    (hr : ∀ d, rd = some (.data d) → noModeCode true d = true) : ∃ w', w.step env (.poll m up rd wr) = some w' ∧ Hid m w' v := by
  have hrd : ∃ w1, (match rd with
        | none => some w
        | some r => w.read env up m r) = some w1 ∧ Hid m w1 v ∧ LInv w1 := by
    cases rd with
    | none => exact ⟨w, rfl, h, hI.l⟩
    | some r =>
      obtain ⟨w1, e1, h1⟩ := read_hself h hI.l env up r (fun d hd => hr d (by rw [hd]))
      exact ⟨w1, e1, h1, (read_inv hI env up m r e1).1.l⟩
  obtain ⟨w1, e1, h1, hI1⟩ := hrd
  have e0 : w.step env (.poll m up rd wr) = (if m ∉ w.live ∨ ((w.obj m).pin = false ∧ (w.obj m).pout = false) then some w
      else (match rd with
        | none => some w
        | some r => w.read env up m r).map (fun w1 : World => if m ∉ w1.live then w1
          else match (if (w.obj m).pout then wr else none) with
          | none => w1
          | some r => w1.flush env up m r)) := rfl
  rw [e0]
  by_cases hc : m ∉ w.live ∨ ((w.obj m).pin = false ∧ (w.obj m).pout = false)
  · rw [if_pos hc]; exact ⟨w, rfl, h⟩
  rw [if_neg hc, e1]
  refine ⟨_, rfl, ?_⟩
  dsimp only
  by_cases hl : m ∉ w1.live
  · rw [if_pos hl]; exact h1
  rw [if_neg hl]
  cases (if (w.obj m).pout then wr else none) with
  | none => exact h1
  | some r => exact flush_hself h1 hI1 env up r

theorem step_hid {m : Nat} (env : Env) {w v : World} (h : Hid m w v) (hI : DInv w) (s : Step) (hs : onlyWatches m s = true) :
    HidO m (w.step env s) (v.step env (sansClient m s)) := by
  cases s with
  | check q =>
    show Hid m (if w.reqOk q.norm ∧ w.validate q.norm = none then { w with wait := w.wait ++ [q.norm] } else w)
      (if v.reqOk q.norm ∧ v.validate q.norm = none then { v with wait := v.wait ++ [q.norm] } else v)
    obtain ⟨h1, h2⟩ := reqOk_hid h q.norm
    by_cases hc : w.reqOk q.norm ∧ w.validate q.norm = none
    · rw [if_pos hc, if_pos ⟨h1.1 hc.1, by rw [h2 hc.1]; exact hc.2⟩]
      exact HR.wait' (· ++ [q.norm]) w v h
    · rw [if_neg hc, if_neg (fun g => hc ⟨h1.2 g.1, by rw [← h2 (h1.2 g.1)]; exact g.2⟩)]; exact h
  | grant c k =>
    have hc : c ≠ m := of_decide_eq_true hs
    show Hid m (match w.wait[k]? with
      | some q => if c ∈ w.live then w else ({ w with wait := w.wait.eraseIdx k } : World).grant env c q
      | none => w) (match v.wait[k]? with
      | some q => if c ∈ v.live then v else ({ v with wait := v.wait.eraseIdx k } : World).grant env c q
      | none => v)
    rw [h.wait]
    cases hq : w.wait[k]? with
    | none => exact h
    | some q =>
      show Hid m (if c ∈ w.live then w else ({ w with wait := w.wait.eraseIdx k } : World).grant env c q)
        (if c ∈ v.live then v else ({ v with wait := w.wait.eraseIdx k } : World).grant env c q)
      have hm : m ∉ q.consoles := by
        intro hm
        have := ((hI.wait q (List.mem_of_getElem? hq)).2.2 m hm).2
        rw [h.km] at this
        exact (nomatch this)
      by_cases hl : c ∈ w.live
      · rw [if_pos hl, if_pos ((h.mem hc).2 hl)]; exact h
      · rw [if_neg hl, if_neg (fun g => hl ((h.mem hc).1 g))]
        exact HR.comp (grant_hid env hc q hm) (HR.wait' (fun _ => w.wait.eraseIdx k)) w v h
  | poll i up rd wr =>
    by_cases hi : i = m
    · subst hi
      have hr : ∀ d, rd = some (.data d) → noModeCode true d = true := by
        intro d hd
        subst hd
        simpa [onlyWatches] using hs
      obtain ⟨w', e, h'⟩ := poll_self h hI.inv env up rd wr hr
      have e2 : v.step env (sansClient i (.poll i up rd wr)) = some v := by
        unfold sansClient
        dsimp only
        rw [if_pos rfl]
        exact idle_step env v
      rw [e, e2]; exact h'
    · clear hs
      have e2 : sansClient m (.poll i up rd wr) = .poll i up rd wr := by
        unfold sansClient; dsimp only; rw [if_neg hi]
      rw [e2]
      clear e2
      have hrd : HidO m (match rd with
          | none => some w
          | some r => w.read env up i r) (match rd with
          | none => some v
          | some r => v.read env up i r) := by
        cases rd with
        | none => exact h
        | some r => exact read_hid h hI.inv env up hi r
      show HidO m (if i ∉ w.live ∨ ((w.obj i).pin = false ∧ (w.obj i).pout = false) then some w
        else (match rd with
          | none => some w
          | some r => w.read env up i r).map (fun w1 : World => if i ∉ w1.live then w1
            else match (if (w.obj i).pout then wr else none) with
            | none => w1
            | some r => w1.flush env up i r))
        (if i ∉ v.live ∨ ((v.obj i).pin = false ∧ (v.obj i).pout = false) then some v
        else (match rd with
          | none => some v
          | some r => v.read env up i r).map (fun w1 : World => if i ∉ w1.live then w1
            else match (if (v.obj i).pout then wr else none) with
            | none => w1
            | some r => w1.flush env up i r))
      have ep : (v.obj i).pin = (w.obj i).pin ∧ (v.obj i).pout = (w.obj i).pout := by rw [h.obj i hi]; exact ⟨rfl, rfl⟩
      rw [ep.1, ep.2]
      by_cases hc : i ∉ w.live ∨ ((w.obj i).pin = false ∧ (w.obj i).pout = false)
      · rw [if_pos hc, if_pos (by rw [h.mem hi]; exact hc)]; exact h
      · have hc' : ¬ (i ∉ v.live ∨ ((w.obj i).pin = false ∧ (w.obj i).pout = false)) := by rw [h.mem hi]; exact hc
        rw [if_neg hc, if_neg hc']
        refine HidO.map hrd (fun a b _ _ hab => ?_)
        by_cases hl : i ∉ a.live
        · rw [if_pos hl, if_pos (by rw [hab.mem hi]; exact hl)]; exact hab
        · have hl' : ¬ i ∉ b.live := by rw [hab.mem hi]; exact hl
          rw [if_neg hl, if_neg hl']
          cases (if (w.obj i).pout then wr else none) with
          | none => exact hab
          | some r => exact flush_hid env up hi r a b hab
  | connUp i =>
    have hi : i ≠ m := of_decide_eq_true hs
    show Hid m (if i ∈ w.live then w.connUp env i else w) (if i ∈ v.live then v.connUp env i else v)
    by_cases hl : i ∈ w.live
    · rw [if_pos hl, if_pos ((h.mem hi).2 hl)]; exact connUp_hid env hi w v h
    · rw [if_neg hl, if_neg (fun g => hl ((h.mem hi).1 g))]; exact h
  | connPend i =>
    have hi : i ≠ m := of_decide_eq_true hs
    show Hid m (if i ∈ w.live ∧ (w.obj i).kind = .telnet ∧ (w.obj i).fd = false then
      w.mod i (fun o => { o with fd := true, pin := true, pout := true, conn := .pending }) else w)
      (if i ∈ v.live ∧ (v.obj i).kind = .telnet ∧ (v.obj i).fd = false then
      v.mod i (fun o => { o with fd := true, pin := true, pout := true, conn := .pending }) else v)
    have e : (v.obj i).kind = (w.obj i).kind ∧ (v.obj i).fd = (w.obj i).fd := by rw [h.obj i hi]; exact ⟨rfl, rfl⟩
    rw [e.1, e.2]
    by_cases hl : i ∈ w.live ∧ (w.obj i).kind = .telnet ∧ (w.obj i).fd = false
    · rw [if_pos hl, if_pos (by rw [h.mem hi]; exact hl)]
      exact HR.mod hi (fun o => { o with fd := true, pin := true, pout := true, conn := .pending }) (fun o ho => ⟨rfl, ⟨ho.nw, ho.nr⟩, rfl, rfl⟩) w v h
    · rw [if_neg hl, if_neg (by rw [h.mem hi]; exact hl)]; exact h
  | connDown i =>
    have hi : i ≠ m := of_decide_eq_true hs
    refine HR.get hi (fun o w => if o.kind = .telnet ∧ o.conn = .pending then
      w.mod i (fun o => { o with fd := false, pin := false, pout := false, conn := .down }) else w) (fun o _ => ?_) w v h
    exact HR.ite _ (HR.mod hi _ (fun o ho => ⟨rfl, ⟨ho.nw, ho.nr⟩, rfl, rfl⟩)) (HR.id' m)
  | connFail i =>
    have hi : i ≠ m := of_decide_eq_true hs
    show Hid m (if i ∈ w.live ∧ (w.obj i).kind = .process ∧ (w.obj i).fd = false then
      w.notify env i (.connFailed i) else w)
      (if i ∈ v.live ∧ (v.obj i).kind = .process ∧ (v.obj i).fd = false then
      v.notify env i (.connFailed i) else v)
    have e : (v.obj i).kind = (w.obj i).kind ∧ (v.obj i).fd = (w.obj i).fd := by rw [h.obj i hi]; exact ⟨rfl, rfl⟩
    rw [e.1, e.2]
    by_cases hl : i ∈ w.live ∧ (w.obj i).kind = .process ∧ (w.obj i).fd = false
    · rw [if_pos hl, if_pos (by rw [h.mem hi]; exact hl)]; exact notify_hid env _ hi w v h
    · rw [if_neg hl, if_neg (by rw [h.mem hi]; exact hl)]; exact h
  | resetTimeout con =>
    have hi : con ≠ m := of_decide_eq_true hs
    refine HR.get hi (fun o w => if o.resetTimer then
      match o.resetPid with
      | none => w.mod con (fun o => { o with resetPid := none, resetTimer := false })
      | some p => if (con, p) ∈ (w.mod con (fun o => { o with resetPid := none, resetTimer := false })).running then
          { (w.mod con (fun o => { o with resetPid := none, resetTimer := false })) with
            running := (w.mod con (fun o => { o with resetPid := none, resetTimer := false })).running.filter (· ≠ (con, p)),
            fx := (w.mod con (fun o => { o with resetPid := none, resetTimer := false })).fx ++ [.kill con p] }
        else w.mod con (fun o => { o with resetPid := none, resetTimer := false })
      else w) (fun o _ => ?_) w v h
    have hm : HR m (fun w => w.mod con (fun o => { o with resetPid := none, resetTimer := false })) (fun w => w.mod con (fun o => { o with resetPid := none, resetTimer := false })) :=
      HR.mod hi _ (fun o ho => ⟨rfl, ⟨ho.nw, ho.nr⟩, rfl, rfl⟩)
    refine HR.ite _ ?_ (HR.id' m)
    show HR m _ (fun w => match o.resetPid with
      | none => w.mod con (fun o => { o with resetPid := none, resetTimer := false })
      | some p => if (con, p) ∈ (w.mod con (fun o => { o with resetPid := none, resetTimer := false })).running then
          { (w.mod con (fun o => { o with resetPid := none, resetTimer := false })) with
            running := (w.mod con (fun o => { o with resetPid := none, resetTimer := false })).running.filter (· ≠ (con, p)),
            fx := (w.mod con (fun o => { o with resetPid := none, resetTimer := false })).fx ++ [.kill con p] }
        else w.mod con (fun o => { o with resetPid := none, resetTimer := false }))
    cases o.resetPid with
    | none => exact hm
    | some p =>
      have hr : HR m (fun w1 : World => if (con, p) ∈ w1.running then
          { w1 with running := w1.running.filter (· ≠ (con, p)), fx := w1.fx ++ [.kill con p] } else w1)
          (fun w1 : World => if (con, p) ∈ w1.running then
          { w1 with running := w1.running.filter (· ≠ (con, p)), fx := w1.fx ++ [.kill con p] } else w1) := by
        intro a b hab
        show Hid m (if (con, p) ∈ a.running then _ else a) (if (con, p) ∈ b.running then _ else b)
        rw [hab.running]
        by_cases hl : (con, p) ∈ a.running
        · rw [if_pos hl, if_pos hl]
          have := HR.comp (HR.fx (m := m) (.kill con p)) (HR.run' (·.filter (· ≠ (con, p)))) a b hab
          dsimp only at this
          rw [hab.running] at this
          exact this
        · rw [if_neg hl, if_neg hl]; exact hab
      exact HR.comp hr hm
  | childExit con pid => exact HR.run' (·.filter (· ≠ (con, pid))) w v h
  | logOpen i ok =>
    have hi : i ≠ m := of_decide_eq_true hs
    refine HR.get hi (fun o w => if o.kind = .logfile then
      w.mod i (fun o =>
        if ok then
          { ({ o with fd := true, pout := false, eof := false }).write (env.txt (.logOpened i) w.tick) false with
            line := .init }
        else { o with fd := false, pin := false, pout := false })
      else w) (fun o _ => ?_) w v h
    refine HR.ite _ (HR.time (fun t w => w.mod i (fun o =>
        if ok then
          { ({ o with fd := true, pout := false, eof := false }).write (env.txt (.logOpened i) t) false with
            line := .init }
        else { o with fd := false, pin := false, pout := false })) (fun t => HR.mod hi _ (fun o ho => ?_))) (HR.id' m)
    cases ok with
    | true =>
      have h1 := HideOk.thenWrite (m := m) (o := o) (f := fun o => { o with fd := true, pout := false, eof := false }) ⟨rfl, ⟨ho.nw, ho.nr⟩, rfl, rfl⟩ (env.txt (.logOpened i) t) false
      exact h1.comp (g := fun o => { o with line := .init }) ⟨rfl, ⟨h1.good.nw, h1.good.nr⟩, rfl, rfl⟩
    | false => exact ⟨rfl, ⟨ho.nw, ho.nr⟩, rfl, rfl⟩
  | logStamp i =>
    have hi : i ≠ m := of_decide_eq_true hs
    exact HR.get hi (fun o w => if o.kind = .logfile then w.note env (.logStamp i) i else w) (fun o _ =>
      HR.ite _ (note_hid env _ hi) (HR.id' m)) w v h

theorem run_hid {m : Nat} (env : Env) (ss : List Step) : ∀ {w v : World}, Hid m w v → DInv w → (∀ s ∈ ss, onlyWatches m s = true) →
    HidO m (w.run env ss) (v.run env (ss.map (sansClient m))) := by
  induction ss with
  | nil => intro w v h _ _; exact h
  | cons s ss ih =>
    intro w v h hI hs
    show HidO m ((w.step env s).bind _) ((v.step env (sansClient m s)).bind _)
    refine HidO.bind (step_hid env h hI s (hs s List.mem_cons_self)) (fun x y hx _ hxy => ?_)
    have hd := world_step_inv hI env s hx
    exact ih (HR.tick1 m x y hxy) ⟨⟨⟨hd.inv.l.sym, hd.inv.l.kinds, hd.inv.l.ndR, hd.inv.l.ndW, hd.inv.l.live⟩, hd.inv.cs, hd.inv.orph, hd.inv.oi⟩, hd.wait⟩
      (fun t ht => hs t (List.mem_cons_of_mem _ ht))

/-! ### the start -/

/-- The log of a console is an object that is there, and not a client. -/
def LogsThere (w : World) : Prop :=
  ∀ j ∈ w.live, (w.obj j).kind ≠ .client → ∀ l, (w.obj j).log = some l → l ∈ w.live ∧ (w.obj l).kind ≠ .client

theorem logs_step {env : Env} {w w' : World} (hd : DInv w) (h : LogsThere w) (s : Step) (hs : w.step env s = some w') : LogsThere w' := by
  obtain ⟨h1, h2, h3⟩ := step_live hd s hs
  intro j hj hk l hl
  rcases h1 j hj with hj0 | ⟨k, q, e, hq, hn, rfl⟩
  · have hf := step_rc hs hj0
    have hlog : (w'.obj j).log = (w.obj j).log := congrArg Prod.snd hf
    rw [h3 j hj0] at hk
    rw [hlog] at hl
    obtain ⟨a, b⟩ := h j hj0 hk l hl
    refine ⟨?_, by rw [h3 l a]; exact b⟩
    rcases h2 l a with g | g
    · exact g
    · exact absurd g.2 b
  · exfalso
    apply hk
    have hw := hd.wait q (List.mem_of_getElem? hq)
    have hI : WInv ({ w with wait := w.wait.eraseIdx k } : World) :=
      ⟨⟨hd.inv.l.sym, hd.inv.l.kinds, hd.inv.l.ndR, hd.inv.l.ndW, hd.inv.l.live⟩, hd.inv.cs, hd.inv.orph, hd.inv.oi⟩
    rw [(grant_inv hI env j q hw.1 hn hw.2).2.kind j]
    unfold World.newClient
    rw [World.mod_self]

theorem logs_boot (cfg : List ConConf) : LogsThere (World.boot cfg) := by
  intro j hj hk l hl
  cases hc : cfg[j / 2]? with
  | none =>
    have : ((World.boot cfg).obj j).log = none := by simp only [World.boot, hc]
    rw [this] at hl; cases hl
  | some c =>
    by_cases he : j % 2 = 0
    · have e1 : ((World.boot cfg).obj j).log = if c.log.isSome then some (j + 1) else none := by
        simp only [World.boot, hc, he, if_true]
      rw [e1] at hl
      cases hlog : c.log with
      | none => rw [hlog] at hl; simp at hl
      | some o =>
        rw [hlog] at hl
        have hl' : j + 1 = l := by simpa using hl
        subst hl'
        have hd : (j + 1) / 2 = j / 2 := by omega
        have hlt : j / 2 < cfg.length := (List.getElem?_eq_some_iff.1 hc).1
        have hm1 : (j + 1) % 2 = 1 := by omega
        constructor
        · show j + 1 ∈ (List.range (2 * cfg.length)).filter _
          rw [List.mem_filter]
          refine ⟨List.mem_range.2 (by omega), ?_⟩
          rw [hd, hc]; simp [hlog]
        · have : ((World.boot cfg).obj (j + 1)).kind = .logfile := by
            have hne : ¬ (j + 1) % 2 = 0 := by omega
            simp only [World.boot, hd, hc, if_neg hne, hlog]
          rw [this]; simp
    · have : ((World.boot cfg).obj j).log = none := by
        simp only [World.boot, hc, if_neg he]
        cases c.log <;> rfl
      rw [this] at hl; cases hl

theorem Reachable.logs {env : Env} {w : World} (hr : Reachable env w) : DInv w ∧ LogsThere w := by
  obtain ⟨cfg, ss, hcfg, h⟩ := hr
  refine world_run_inv (P := fun w => DInv w ∧ LogsThere w) env (fun w s w' hp hs => ⟨world_step_inv hp.1 env s hs, logs_step hp.1 hp.2 s hs⟩)
    (fun w n hp => ⟨?_, hp.2⟩) ss ⟨boot_inv cfg hcfg, logs_boot cfg⟩ h
  have hd := hp.1
  exact ⟨⟨⟨hd.inv.l.sym, hd.inv.l.kinds, hd.inv.l.ndR, hd.inv.l.ndW, hd.inv.l.live⟩, hd.inv.cs, hd.inv.orph, hd.inv.oi⟩, hd.wait⟩

/-- A client that watches, and the world without it. -/
theorem Hid.without {w : World} (hd : DInv w) (hl : LogsThere w) {m : Nat} (hk : (w.obj m).kind = .client) (hr : (w.obj m).readers = []) :
    Hid m w (without m w) := by
  refine ⟨fun j hj => if_neg hj, fun j hj => ⟨fun h => ?_, fun hkj h => ?_⟩, fun j hj hlv hkj h => ?_, hk, hr, rfl, rfl, rfl, rfl, rfl⟩
  · have := (hd.inv.l.sym m j).2 h
    rw [hr] at this; exact (nomatch this)
  · rcases hd.inv.l.kinds j m h with g | g
    · rw [hk] at g; exact (nomatch g.2)
    · rw [hkj] at g; exact (nomatch g.1)
  · exact (hl j hlv hkj m h).2 hk

/-- A client arrives that only watches. -/
theorem grant_absorb {env : Env} {w : World} (hd : DInv w) (hl : LogsThere w) {m k : Nat} {q : Req} (hq : w.wait[k]? = some q) (hc : q.cmd = .monitor)
    (hm : m ∉ w.live) : Hid m (({ w with wait := w.wait.eraseIdx k } : World).grant env m q) { w with wait := w.wait.eraseIdx k } := by
  have hnr : ∀ j, m ∉ (w.obj j).readers := fun j h => hm (hd.inv.l.live j m h).2
  have hnw : ∀ j, m ∉ (w.obj j).writers := fun j h => hm (hd.inv.l.live m j ((hd.inv.l.sym m j).2 h)).1
  have h0 : Hid m (({ w with wait := w.wait.eraseIdx k } : World).newClient m q) { w with wait := w.wait.eraseIdx k } := by
    have e1 : ∀ j, j ≠ m → (({ w with wait := w.wait.eraseIdx k } : World).newClient m q).obj j = w.obj j := fun j hj => World.mod_ne _ _ hj
    have e2 : (({ w with wait := w.wait.eraseIdx k } : World).newClient m q).obj m = { kind := .client, fd := true, pin := true, quiet := q.quiet, force := q.force, join := q.join, bcast := q.bcast, cmd := q.cmd, gen := (w.obj m).gen } :=
      World.mod_self _ _ _
    refine ⟨fun j hj => ?_, fun j hj => ?_, fun j hj hlv hkj h => ?_, ?_, ?_, ?_, rfl, rfl, rfl, rfl⟩
    · rw [e1 j hj]
      unfold hide
      have : (w.obj j).readers.filter (· ≠ m) = (w.obj j).readers := List.filter_eq_self.2 (fun x hx => by
        simp only [decide_eq_true_eq]; rintro rfl; exact hnr j hx)
      rw [this]
    · rw [e1 j hj]; exact ⟨hnw j, fun _ => hnr j⟩
    · rw [e1 j hj] at hkj h
      refine hm (hl j ?_ hkj m h).1
      rcases List.mem_append.1 (show j ∈ w.live ++ [m] from hlv) with g | g
      · exact g
      · exact absurd (List.mem_singleton.1 g) hj
    · rw [e2]
    · rw [e2]
    · show w.live = (w.live ++ [m]).filter (· ≠ m)
      rw [List.filter_append, List.filter_eq_self.2 (fun x hx => by
        simp only [decide_eq_true_eq]; rintro rfl; exact hm hx), List.filter_cons_of_neg (by simp)]
      simp
  unfold World.grant
  rw [hc]
  cases hcs : q.consoles with
  | nil => exact h0
  | cons con l =>
    have hcon := (hd.wait q (List.mem_of_getElem? hq)).2.2 con (by rw [hcs]; exact List.mem_cons_self)
    have hne : con ≠ m := fun e => hm (e ▸ hcon.1)
    have hk : ¬ ((({ w with wait := w.wait.eraseIdx k } : World).newClient m q).obj con).kind = .client := by
      have : (({ w with wait := w.wait.eraseIdx k } : World).newClient m q).obj con = w.obj con := World.mod_ne _ _ hne
      rw [this]
      intro e
      rw [e] at hcon
      exact (nomatch hcon.2)
    dsimp only
    revert h0 hk
    generalize (({ w with wait := w.wait.eraseIdx k } : World).newClient m q) = w1
    intro h0 hk
    have h1 : Hid m (w1.linkObjs env con m) { w with wait := w.wait.eraseIdx k } := by
      have hcc : ¬ ((w1.obj con).kind = .client ∧ (w1.obj m).kind.isConsole = true) := fun g => hk g.1
      have e : w1.linkObjs env con m = (w1.mod con (fun o => { o with readers := o.readers ++ [m] })).mod m (fun o => { o with writers := o.writers ++ [con] }) := by
        unfold World.linkObjs
        dsimp only
        rw [if_neg hcc]
      rw [e]
      have ha : Hid m (w1.mod con (fun o => { o with readers := o.readers ++ [m] })) { w with wait := w.wait.eraseIdx k } := by
        refine ⟨fun j hj => ?_, fun j hj => ?_, fun j hj hlv hkj => ?_, ?_, ?_, h0.live, h0.tick, h0.running, h0.wait, h0.fx⟩
        · rw [h0.obj j hj]
          by_cases ej : j = con
          · subst ej
            rw [World.mod_self]
            show hide m (w1.obj j) = { hide m (w1.obj j) with readers := ((w1.obj j).readers ++ [m]).filter (· ≠ m) }
            rw [List.filter_append, List.filter_cons_of_neg (by simp), List.filter_nil, List.append_nil]
            rfl
          · rw [World.mod_ne _ _ ej]
        · by_cases ej : j = con
          · subst ej
            rw [World.mod_self]
            exact ⟨(h0.good j hj).nw, fun e => absurd e hk⟩
          · rw [World.mod_ne _ _ ej]; exact h0.good j hj
        · by_cases ej : j = con
          · subst ej
            rw [World.mod_self] at hkj ⊢
            exact h0.lg j hj hlv hkj
          · rw [World.mod_ne _ _ ej] at hkj ⊢; exact h0.lg j hj hlv hkj
        · rw [World.mod_ne _ _ (Ne.symm hne)]; exact h0.km
        · rw [World.mod_ne _ _ (Ne.symm hne)]; exact h0.rm
      exact HR.self (fun o => { o with writers := o.writers ++ [con] }) (fun _ => rfl) (fun _ => rfl) _ _ ha
    unfold World.checkState
    by_cases hu : ((w1.linkObjs env con m).obj con).isUp = true
    · rw [if_pos hu]; exact h1
    · rw [if_neg hu]; exact note_self env _ _ _ h1

theorem Hid.unseen {m : Nat} {w v : World} (h : Hid m w v) : Unseen m w v := ⟨h.obj, h.live, h.running, h.wait, h.fx⟩

end Conman
