import Verif.Lemma.WorldFeed

/-
The commands of a client do not depend on its pending escape state, so a read can be taken apart.
-/
namespace Conman
open Spec

/-- Set the pending escape state. -/
def Obj.se (o : Obj) (e : Bool) : Obj := { o with gotEscape := e }
def World.se (w : World) (c : Nat) (e : Bool) : World := w.mod c (fun o => o.se e)

@[simp] theorem Obj.se_readers (o : Obj) (e : Bool) : (o.se e).readers = o.readers := rfl
@[simp] theorem Obj.se_writers (o : Obj) (e : Bool) : (o.se e).writers = o.writers := rfl
@[simp] theorem Obj.se_kind (o : Obj) (e : Bool) : (o.se e).kind = o.kind := rfl
@[simp] theorem Obj.se_force (o : Obj) (e : Bool) : (o.se e).force = o.force := rfl
@[simp] theorem Obj.se_bcast (o : Obj) (e : Bool) : (o.se e).bcast = o.bcast := rfl
@[simp] theorem Obj.se_conn (o : Obj) (e : Bool) : (o.se e).conn = o.conn := rfl
@[simp] theorem Obj.se_quiet (o : Obj) (e : Bool) : (o.se e).quiet = o.quiet := rfl
@[simp] theorem Obj.se_fd (o : Obj) (e : Bool) : (o.se e).fd = o.fd := rfl
@[simp] theorem Obj.se_log (o : Obj) (e : Bool) : (o.se e).log = o.log := rfl
@[simp] theorem Obj.se_hist (o : Obj) (e : Bool) : (o.se e).hist = o.hist := rfl
@[simp] theorem Obj.se_orphan (o : Obj) (e : Bool) : (o.se e).orphan = o.orphan := rfl
@[simp] theorem Obj.se_resetCmd (o : Obj) (e : Bool) : (o.se e).resetCmd = o.resetCmd := rfl
@[simp] theorem Obj.se_resetPid (o : Obj) (e : Bool) : (o.se e).resetPid = o.resetPid := rfl

theorem se_obj (w : World) (c : Nat) (e : Bool) (j : Nat) : (w.se c e).obj j = (w.obj j).se (if j = c then e else (w.obj j).gotEscape) := by
  unfold World.se
  rw [World.mod_obj]
  split
  · rename_i h; subst h; rfl
  · rfl

theorem se_mod (w : World) (c : Nat) (e : Bool) (i : Nat) (f : Obj → Obj) (hf : ∀ o e, f (o.se e) = (f o).se e) :
    (w.se c e).mod i f = (w.mod i f).se c e := by
  have : ∀ j, ((w.se c e).mod i f).obj j = ((w.mod i f).se c e).obj j := by
    intro j
    unfold World.se World.mod
    dsimp only
    by_cases h1 : j = i
    · rw [if_pos h1, if_pos h1]
      by_cases h2 : j = c
      · rw [if_pos h2, if_pos h2, hf]
      · rw [if_neg h2, if_neg h2]
    · rw [if_neg h1, if_neg h1]
  unfold World.se World.mod at this ⊢
  dsimp only at this ⊢
  congr 1
  funext j
  exact this j

theorem write_se (d : List UInt8) (b : Bool) (o : Obj) (e : Bool) : (o.se e).write d b = (o.write d b).se e := by
  unfold Obj.write Obj.se
  generalize enq = f
  split; rfl
  split; rfl
  split; rfl
  rfl

theorem foldl_se {α : Type} (g : World → α → World) (c : Nat) (e : Bool) (hg : ∀ w x, g (w.se c e) x = (g w x).se c e) (l : List α) :
    ∀ w : World, l.foldl g (w.se c e) = (l.foldl g w).se c e := by
  induction l with
  | nil => intro w; rfl
  | cons x l ih => intro w; rw [List.foldl_cons, List.foldl_cons, hg, ih]

theorem note_se (w : World) (c : Nat) (e : Bool) (env : Env) (n : Note) (i : Nat) :
    (w.se c e).note env n i = (w.note env n i).se c e := by
  unfold World.note
  rw [se_mod _ _ _ _ _ (fun o e => write_se _ _ o e)]
  rfl

theorem notify_se (w : World) (c : Nat) (e : Bool) (env : Env) (con : Nat) (n : Note) :
    (w.se c e).notify env con n = (w.notify env con n).se c e := by
  unfold World.notify
  simp only [se_obj, Obj.se_readers, Obj.se_writers]
  rw [foldl_se _ _ _ (fun w x => note_se w c e env n x), foldl_se _ _ _ (fun w x => note_se w c e env n x)]

theorem cut_se (w : World) (c : Nat) (e : Bool) (a b : Nat) : (w.se c e).cut a b = (w.cut a b).se c e := by
  unfold World.cut
  rw [se_mod _ _ _ _ _ (fun o e => rfl), se_mod _ _ _ _ _ (fun o e => rfl)]

theorem unlinkObjs_se (w : World) (c : Nat) (e : Bool) (env : Env) (a b : Nat) :
    (w.se c e).unlinkObjs env a b = (w.unlinkObjs env a b).se c e := by
  unfold World.unlinkObjs
  dsimp only
  rw [cut_se]
  simp only [se_obj, Obj.se_writers, Obj.se_kind]
  have k : ∀ v : World, (if ((v.se c e).obj a).orphan then (v.se c e).mod a (fun o => { o with eof := true })
      else if ((v.se c e).obj b).orphan then (v.se c e).mod b (fun o => { o with eof := true }) else v.se c e) =
      (if (v.obj a).orphan then v.mod a (fun o => { o with eof := true })
      else if (v.obj b).orphan then v.mod b (fun o => { o with eof := true }) else v).se c e := by
    intro v
    simp only [se_obj, Obj.se_orphan]
    split
    · exact se_mod _ _ _ _ _ (fun o e => rfl)
    split
    · exact se_mod _ _ _ _ _ (fun o e => rfl)
    · rfl
  split
  · rw [notify_se]; exact k _
  · exact k _

theorem unlinkWriters_se (c : Nat) (e : Bool) (env : Env) (i : Nat) (n : Nat) : ∀ w : World,
    (w.se c e).unlinkWriters env i n = (w.unlinkWriters env i n).se c e := by
  induction n with
  | zero => intro w; rfl
  | succ n ih =>
    intro w
    unfold World.unlinkWriters
    rw [se_obj, Obj.se_writers]
    split
    · rfl
    · rw [unlinkObjs_se, ih]

theorem unlinkReaders_se (c : Nat) (e : Bool) (env : Env) (i : Nat) (n : Nat) : ∀ w : World,
    (w.se c e).unlinkReaders env i n = (w.unlinkReaders env i n).se c e := by
  induction n with
  | zero => intro w; rfl
  | succ n ih =>
    intro w
    unfold World.unlinkReaders
    rw [se_obj, Obj.se_readers]
    split
    · rfl
    · rw [unlinkObjs_se, ih]

theorem unlinkObj_se (w : World) (c : Nat) (e : Bool) (env : Env) (i : Nat) :
    (w.se c e).unlinkObj env i = (w.unlinkObj env i).se c e := by
  unfold World.unlinkObj
  dsimp only
  rw [se_obj, Obj.se_writers, unlinkWriters_se, se_obj, Obj.se_readers, unlinkReaders_se]

theorem linkObjs_se (w : World) (c : Nat) (e : Bool) (env : Env) (a b : Nat) :
    (w.se c e).linkObjs env a b = (w.linkObjs env a b).se c e := by
  have k : ∀ v : World, ((v.se c e).mod a (fun o => { o with readers := o.readers ++ [b] })).mod b
      (fun o => { o with writers := o.writers ++ [a] }) =
      ((v.mod a (fun o => { o with readers := o.readers ++ [b] })).mod b (fun o => { o with writers := o.writers ++ [a] })).se c e := by
    intro v
    rw [se_mod _ _ _ _ _ (fun o e => rfl), se_mod _ _ _ _ _ (fun o e => rfl)]
  unfold World.linkObjs
  dsimp only
  simp only [se_obj, Obj.se_kind, Obj.se_writers, Obj.se_force]
  split
  · rw [notify_se, foldl_se _ _ _ (fun w x => note_se w c e env _ a)]
    split
    · rw [foldl_se _ _ _ (fun w x => unlinkObj_se w c e env x), k]
    · rw [k]
  · rw [k]

theorem break1_se (w : World) (c : Nat) (e : Bool) (con : Nat) : (w.se c e).break1 con = (w.break1 con).se c e := by
  unfold World.break1
  rw [se_obj, Obj.se_kind, Obj.se_conn]
  split
  · exact se_mod _ _ _ _ _ (fun o e => write_se _ _ o e)
  · rfl
  · rfl
  · split
    · exact se_mod _ _ _ _ _ (fun o e => write_se _ _ o e)
    · rfl
  · rfl

theorem toggle_se (w : World) (c : Nat) (e : Bool) (env : Env) (i : Nat) :
    (w.se c e).toggle env i = (w.toggle env i).map (·.se c e) := by
  unfold World.toggle
  simp only [se_obj, Obj.se_bcast, Obj.se_writers, Obj.se_readers]
  split
  · rfl
  split
  · rfl
  · split
    · rw [se_mod _ _ _ _ _ (fun o e => rfl), unlinkObjs_se]; rfl
    · rw [se_mod _ _ _ _ _ (fun o e => rfl), linkObjs_se]; rfl

theorem reset1_se (w : World) (c : Nat) (e : Bool) (env : Env) (i con : Nat) :
    (w.se c e).reset1 env i con = (w.reset1 env i con).se c e := by
  have k : ∀ v : World, ({ v.se c e with tick := (v.se c e).tick + 1 } : World) = ({ v with tick := v.tick + 1 } : World).se c e :=
    fun v => rfl
  have kt : (w.se c e).tick = w.tick := rfl
  unfold World.reset1
  dsimp only
  simp only [se_obj, Obj.se_resetCmd, Obj.se_resetPid, kt]
  split
  · exact k _
  split
  · rw [notify_se]; exact k _
  split
  · rw [notify_se]; exact k _
  split
  · rw [notify_se]; exact k _
  · rename_i pid _
    have : ({ w.se c e with tick := w.tick, running := (w.se c e).running ++ [(con, pid)], fx := (w.se c e).fx ++ [.resetStart con pid] } : World) =
      ({ w with running := w.running ++ [(con, pid)], fx := w.fx ++ [.resetStart con pid] } : World).se c e := rfl
    rw [this, se_mod _ _ _ _ _ (fun o e => rfl), notify_se]
    exact k _

theorem act_se (w : World) (c : Nat) (e : Bool) (env : Env) (i : Nat) (a : UInt8) :
    (w.se c e).act env i a = (w.act env i a).map (·.se c e) := by
  have kt : (w.se c e).tick = w.tick := rfl
  have kr : ((w.se c e).obj i).readers = (w.obj i).readers := by rw [se_obj, Obj.se_readers]
  have kw : ((w.se c e).obj i).writers = (w.obj i).writers := by rw [se_obj, Obj.se_writers]
  have kq : ((w.se c e).obj i).quiet = (w.obj i).quiet := by rw [se_obj, Obj.se_quiet]
  unfold World.act
  rw [kr, kw, kq, kt]
  by_cases h : a = 0x42
  · rw [if_pos h, if_pos h, foldl_se _ _ _ (fun w x => break1_se w c e x)]; rfl
  rw [if_neg h, if_neg h]; clear h
  by_cases h : a = 0x44
  · rw [if_pos h, if_pos h, foldl_se _ _ _ (fun w x => se_mod w c e x _ (fun o e => write_se _ _ o e))]; rfl
  rw [if_neg h, if_neg h]; clear h
  by_cases h : a = 0x46
  · rw [if_pos h, if_pos h, se_mod _ _ _ _ _ (fun o e => rfl), toggle_se]
  rw [if_neg h, if_neg h]; clear h
  by_cases h : a = 0x4A
  · rw [if_pos h, if_pos h, se_mod _ _ _ _ _ (fun o e => rfl), toggle_se]
  rw [if_neg h, if_neg h]; clear h
  by_cases h : a = 0x4C
  · rw [if_pos h, if_pos h]
    cases (w.obj i).writers with
    | nil => rfl
    | cons con t =>
      dsimp only
      have hh : (w.se c e).logHist con = w.logHist con := by
        unfold World.logHist
        rw [se_obj, Obj.se_log]
        congr 1; funext l
        rw [se_obj, Obj.se_fd, Obj.se_hist]
      rw [hh, se_mod _ _ _ _ _ (fun o e => write_se _ _ o e)]; rfl
  rw [if_neg h, if_neg h]; clear h
  by_cases h : a = 0x4D
  · rw [if_pos h, if_pos h, se_mod _ _ _ _ _ (fun o e => rfl), toggle_se]
  rw [if_neg h, if_neg h]; clear h
  by_cases h : a = 0x51
  · rw [if_pos h, if_pos h]
    dsimp only
    rw [se_mod _ _ _ _ _ (fun o e => write_se _ _ { o with quiet := _ } e)]; rfl
  rw [if_neg h, if_neg h]; clear h
  by_cases h : a = 0x52
  · rw [if_pos h, if_pos h, foldl_se _ _ _ (fun w x => reset1_se w c e env i x)]; rfl
  rw [if_neg h, if_neg h]; clear h
  by_cases h : a = 0x5A
  · rw [if_pos h, if_pos h, se_mod _ _ _ _ _ (fun o e => rfl)]; rfl
  rw [if_neg h, if_neg h]
  rfl

theorem acts_se (c : Nat) (e : Bool) (env : Env) (i : Nat) (as : List UInt8) : ∀ w : World,
    (w.se c e).acts env i as = (w.acts env i as).map (·.se c e) := by
  induction as with
  | nil => intro w; rfl
  | cons a as ih =>
    intro w
    unfold World.acts
    rw [act_se]
    cases w.act env i a with
    | none => rfl
    | some v => simp only [Option.map_some, Option.bind_some]; exact ih v

theorem acts_append (env : Env) (c : Nat) (a b : List UInt8) : ∀ w : World,
    w.acts env c (a ++ b) = (w.acts env c a).bind (fun w => w.acts env c b) := by
  induction a with
  | nil => intro w; rfl
  | cons x a ih =>
    intro w
    show (w.act env c x).bind (fun w => w.acts env c (a ++ b)) = ((w.act env c x).bind (fun w => w.acts env c a)).bind _
    rw [Option.bind_assoc]
    congr 1
    funext v
    exact ih v

theorem se_se (w : World) (c : Nat) (e e' : Bool) : (w.se c e).se c e' = w.se c e' := by
  unfold World.se World.mod
  congr 1
  funext j
  dsimp only
  by_cases h : j = c <;> simp [h, Obj.se]

theorem enters_le {d : List UInt8} (h : d.length ≤ queueCap) : enters d = d := by
  unfold enters
  have : ¬ d.length ≥ objBufSize := by unfold queueCap at h; unfold objBufSize; omega
  rw [if_neg this]

/-- Two writes of data in a row are one. -/
theorem write_append (o : Obj) (d1 d2 : List UInt8) (h : (d1 ++ d2).length ≤ queueCap) :
    (o.write d1 false).write d2 false = o.write (d1 ++ d2) false := by
  have h1 : d1.length ≤ queueCap := by rw [List.length_append] at h; omega
  have h2 : d2.length ≤ queueCap := by rw [List.length_append] at h; omega
  by_cases e1 : d1 = []
  · subst e1; simp [Obj.write]
  by_cases e2 : d2 = []
  · subst e2; rw [List.append_nil]; rw [Obj.write.eq_def _ [], if_pos rfl]
  have e3 : d1 ++ d2 ≠ [] := by simp [e1]
  by_cases he : o.eof = true
  · simp [Obj.write, he]
  · have w1 : ∀ (o : Obj) (d : List UInt8), d ≠ [] → ¬ o.eof = true → o.write d false =
        { o with pend := enq o.pend d, hist := o.hist ++ (enters d).map some, pout := o.pout || (o.fd && !(o.kind = .client && o.suspend)) } := by
      intro o d hd he
      unfold Obj.write
      generalize enq = f
      rw [if_neg hd, if_neg he, if_neg (by simp)]
      simp
    rw [w1 _ _ e1 he, w1 _ _ e2 (by exact he), w1 _ _ e3 he]
    dsimp only
    rw [enq_le _ _ h1, enq_le _ _ h2, enq_le _ _ h, lastN_append_lastN, List.append_assoc]
    rw [enters_le h1, enters_le h2, enters_le h, List.map_append, List.append_assoc]
    generalize lastN _ _ = l
    rw [Bool.or_assoc, Bool.or_self]

theorem World.ext_rest {w w' : World} (h : ∀ j, w.obj j = w'.obj j) (hr : w.rest = w'.rest) : w = w' := by
  obtain ⟨o, l, t, r, f, q⟩ := w
  obtain ⟨o', l', t', r', f', q'⟩ := w'
  simp only [World.rest, Prod.mk.injEq] at hr h
  obtain ⟨rfl, rfl, rfl, rfl, rfl⟩ := hr
  have : o = o' := funext h
  rw [this]

/-- A client's data delivered in two parts. -/
theorem deliver_append {w : World} (h : WInv w) (env : Env) (c : Nat) (hc : (w.obj c).kind = .client) (d1 d2 : List UInt8)
    (hlen : (d1 ++ d2).length ≤ queueCap) :
    (w.deliver env c d1).deliver env c d2 = w.deliver env c (d1 ++ d2) := by
  by_cases e1 : d1 = []
  · subst e1; rw [deliver_nil]; rfl
  by_cases e2 : d2 = []
  · subst e2; rw [deliver_nil, List.append_nil]
  have e3 : d1 ++ d2 ≠ [] := by simp [e1]
  have p := deliver_lstep w env c d1
  obtain ⟨x1, y1⟩ := deliver_exact h.l env c d1 e1
  obtain ⟨x2, y2⟩ := deliver_exact (h.l.same p.sl) env c d2 e2
  obtain ⟨x3, y3⟩ := deliver_exact h.l env c (d1 ++ d2) e3
  refine World.ext_rest (fun j => ?_) (by rw [y2, y1, y3])
  rw [x2 j, x3 j, (p.loc c).rd, x1 j]
  by_cases hj : j ∈ (w.obj c).readers
  · rw [if_pos hj, if_pos hj, if_pos hj]
    have hk : (w.obj j).kind ≠ .logfile := by
      rcases h.l.kinds c j hj with g | g
      · intro e; rw [e] at g; simp [OKind.isConsole] at g
      · rw [hc] at g; simp [OKind.isConsole] at g
    rw [if_neg hk, if_neg (by simpa using hk), if_neg hk]
    exact write_append _ _ _ hlen
  · rw [if_neg hj, if_neg hj, if_neg hj]

theorem writeLog_se (clk : Nat → List UInt8) (d : List UInt8) (o : Obj) (e : Bool) : (o.se e).writeLog clk d = (o.writeLog clk d).se e := by
  have k : ∀ (l : List (List UInt8)) (o : Obj), l.foldl (fun o b => o.write b false) (o.se e) = (l.foldl (fun o b => o.write b false) o).se e := by
    intro l
    induction l with
    | nil => intro o; rfl
    | cons x l ih => intro o; rw [List.foldl_cons, List.foldl_cons, write_se, ih]
  unfold Obj.writeLog
  dsimp only
  have e1 : (o.se e).opts = o.opts := rfl
  have e2 : (o.se e).line = o.line := rfl
  have e3 : (o.se e).stamps = o.stamps := rfl
  rw [e1, e2, e3]
  generalize (writeLogData o.opts clk o.line o.stamps d).getD _ = r
  exact k r.out { o with line := r.st, stamps := r.k }

theorem deliver_se (w : World) (c : Nat) (e : Bool) (env : Env) (i : Nat) (d : List UInt8) :
    (w.se c e).deliver env i d = (w.deliver env i d).se c e := by
  have k : ∀ (w : World) x, (w.se c e).give env d x = (w.give env d x).se c e := by
    intro w x
    unfold World.give
    refine se_mod _ _ _ _ _ (fun o e => ?_)
    rw [Obj.se_kind]
    split
    · exact writeLog_se _ _ o e
    · exact write_se _ _ o e
  unfold World.deliver
  split
  · rfl
  · rw [se_obj, Obj.se_readers, foldl_se _ _ _ k]

theorem se_lstep (w : World) (c : Nat) (e : Bool) : LStep w (w.se c e) := .mod _ _ _ ⟨rfl, rfl, rfl, rfl, rfl, rfl, rfl, fun h => ⟨h.cap, h.susp, h.closed⟩⟩

theorem client_read {w : World} (env : Env) (up : Bool) (c : Nat) (hk : (w.obj c).kind = .client) (hf : (w.obj c).fd = true)
    (d : List UInt8) (hd : d.length ≤ 8191) :
    w.read env up c (.data d) = (w.acts env c (wireCommands (w.obj c).gotEscape d)).map (fun v =>
      (v.se c (unescRef (w.obj c).gotEscape d).1).deliver env c (wireData (w.obj c).gotEscape d)) := by
  unfold World.read
  rw [if_neg (by simp [hf]), if_neg (by simp [hk]), if_neg (by rw [hk]; simp)]
  simp only [hk]
  rw [List.take_of_length_le (by rw [readBufSize_eq]; exact hd)]
  obtain ⟨h1, h2, h3⟩ := unesc_data (w.obj c).gotEscape d
  rw [h1, h2, h3]
  rfl

/-- A read taken apart. -/
theorem read_split {w : World} (h : WInv w) (env : Env) (up : Bool) (c : Nat) (hk : (w.obj c).kind = .client)
    (ci : CInv (w.obj c)) (d1 d2 : List UInt8) (hd : (d1 ++ d2).length ≤ 8191)
    (hs : wireData (w.obj c).gotEscape d1 = [] ∨ wireCommands (unescRef (w.obj c).gotEscape d1).1 d2 = []) :
    w.read env up c (.data (d1 ++ d2)) = (w.read env up c (.data d1)).bind (fun v => v.read env up c (.data d2)) := by
  have l1 : d1.length ≤ 8191 := by rw [List.length_append] at hd; omega
  have l2 : d2.length ≤ 8191 := by rw [List.length_append] at hd; omega
  have lq : (d1 ++ d2).length ≤ queueCap := Nat.le_trans hd (by unfold queueCap; omega)
  rw [client_read env up c hk ci.fd _ hd, client_read env up c hk ci.fd _ l1]
  have ap := unescRef_append (w.obj c).gotEscape d1 d2
  have e1 : wireCommands (w.obj c).gotEscape (d1 ++ d2) =
      wireCommands (w.obj c).gotEscape d1 ++ wireCommands (unescRef (w.obj c).gotEscape d1).1 d2 := by
    rw [← (unescRef_wire _ _).2, ← (unescRef_wire _ _).2, ← (unescRef_wire _ _).2, ap]
  have e2 : wireData (w.obj c).gotEscape (d1 ++ d2) =
      wireData (w.obj c).gotEscape d1 ++ wireData (unescRef (w.obj c).gotEscape d1).1 d2 := by
    rw [← (unescRef_wire _ _).1, ← (unescRef_wire _ _).1, ← (unescRef_wire _ _).1, ap]
  have e3 : (unescRef (w.obj c).gotEscape (d1 ++ d2)).1 = (unescRef (unescRef (w.obj c).gotEscape d1).1 d2).1 := by rw [ap]
  have dl : ∀ (e : Bool) (d : List UInt8), (wireData e d).length ≤ d.length := by
    intro e d
    induction d generalizing e with
    | nil => simp [wireData]
    | cons b d ih =>
      unfold wireData
      split
      · have := ih false; split <;> simp <;> omega
      · have := ih (b = 0xFF); split <;> simp_all <;> omega
  have lx : (wireData (w.obj c).gotEscape d1 ++ wireData (unescRef (w.obj c).gotEscape d1).1 d2).length ≤ queueCap := by
    rw [List.length_append] at lq ⊢
    have := dl (w.obj c).gotEscape d1
    have := dl (unescRef (w.obj c).gotEscape d1).1 d2
    omega
  rw [e1, e2, e3, acts_append]
  cases ha : w.acts env c (wireCommands (w.obj c).gotEscape d1) with
  | none => rfl
  | some v =>
    rw [Option.bind_some, Option.map_some, Option.bind_some]
    obtain ⟨hv, kv⟩ := acts_inv env c none (by simp) _ h hk ha
    have hkv : (v.obj c).kind = .client := by rw [kv.kind]; exact hk
    have hself : ∀ v : World, WInv v → (v.obj c).kind = .client → c ∉ (v.obj c).readers := by
      intro v hv hk hm
      rcases hv.l.kinds c c hm with g | g
      · rw [hk] at g; simp [OKind.isConsole] at g
      · rw [hk] at g; simp [OKind.isConsole] at g
    have hv1 := hv.wstep (se_lstep v c (unescRef (w.obj c).gotEscape d1).1).ws
    have own : ((v.se c (unescRef (w.obj c).gotEscape d1).1).deliver env c (wireData (w.obj c).gotEscape d1)).obj c =
        (v.obj c).se (unescRef (w.obj c).gotEscape d1).1 := by
      rw [deliver_other env c _ (hself _ hv1 (by rw [se_obj]; exact hkv)), se_obj, if_pos rfl]
    have hfv : (v.obj c).fd = true := (CInv.own (acts_cown env c _ h hk ha) ci).fd
    rw [client_read env up c (by rw [own]; exact hkv) (by rw [own]; exact hfv) _ l2]
    rw [own]
    have hg : ((v.obj c).se (unescRef (w.obj c).gotEscape d1).1).gotEscape = (unescRef (w.obj c).gotEscape d1).1 := rfl
    rw [hg]
    rcases hs with hs | hs
    · rw [hs, deliver_nil, acts_se, Option.map_map]
      congr 1
      funext u
      show _ = ((u.se c _).se c _).deliver env c _
      rw [se_se, List.nil_append]
    · rw [hs]
      simp only [World.acts, Option.map_some]
      rw [← deliver_se, se_se, deliver_append (hv.wstep (se_lstep v c _).ws) env c (by rw [se_obj]; exact hkv) _ _ lx]

theorem client_read_keeps {w v : World} (h : WInv w) (env : Env) (up : Bool) (c : Nat) (hk : (w.obj c).kind = .client)
    (ci : CInv (w.obj c)) (d : List UInt8) (hd : d.length ≤ 8191) (hr : w.read env up c (.data d) = some v) :
    CInv (v.obj c) ∧ (v.obj c).eof = (w.obj c).eof ∧ v.live = w.live ∧ (v.obj c).gotEscape = (unescRef (w.obj c).gotEscape d).1 := by
  rw [client_read env up c hk ci.fd _ hd, Option.map_eq_some_iff] at hr
  obtain ⟨u, hu, rfl⟩ := hr
  obtain ⟨hv, kv⟩ := acts_inv env c none (by simp) _ h hk hu
  have l := acts_links env c _ h hk hu
  have cu := CInv.own (acts_cown env c _ h hk hu) ci
  have s := se_lstep u c (unescRef (w.obj c).gotEscape d).1
  have hv1 := hv.wstep s.ws
  have hself : c ∉ ((u.se c (unescRef (w.obj c).gotEscape d).1).obj c).readers := by
    have hk1 : ((u.se c (unescRef (w.obj c).gotEscape d).1).obj c).kind = .client := by rw [(s.loc c).kind, kv.kind]; exact hk
    intro hm
    rcases hv1.l.kinds c c hm with g | g
    · rw [hk1] at g; simp [OKind.isConsole] at g
    · rw [hk1] at g; simp [OKind.isConsole] at g
  rw [deliver_other env c _ hself, se_obj, if_pos rfl]
  refine ⟨⟨cu.kind, cu.fd, cu.pin, cu.pout⟩, l.2.1, ?_, rfl⟩
  rw [(deliver_lstep _ _ _ _).live, s.live, kv.live]

theorem poll_is_read {w : World} (env : Env) (c : Nat) (up : Bool) (r : ReadRes) (hl : c ∈ w.live) (hp : (w.obj c).pin = true) :
    w.step env (.poll c up (some r) none) = w.read env up c r := by
  simp only [World.step]
  rw [if_neg (by simp [hl, hp])]
  have : (if (w.obj c).pout = true then (none : Option WriteRes) else none) = none := by split <;> rfl
  simp only [this]
  cases w.read env up c r with
  | none => rfl
  | some v => simp

end Conman
