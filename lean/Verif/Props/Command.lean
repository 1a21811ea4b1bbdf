import Verif.Props.Quiet
import Verif.Props.Reset

/-
C68: what the commands of a client do.  Each theorem is about one read that consists of one command; C60 tells what happens to other reads.
-/
namespace Conman
open Spec

/-- The break a console gets in its data stream: "&B" for a program, IAC BRK for a connected telnet console, none for other types. -/
def Spec.breakData (o : Obj) : List UInt8 :=
  match o.kind with
  | .process => [0x26, 0x42]
  | .telnet => if o.conn = .up then [0xFF, 0xF3] else []
  | _ => []

/-- Whether a break is sent by the device itself. -/
def Spec.breakLine (o : Obj) : Bool := o.kind = .serial || o.kind = .ipmi

/-- A read of a single command and no text. -/
theorem single_cmd {env : Env} {w w' : World} (h : Reachable env w) (c : Nat) (hl : c ∈ w.live) (hk : (w.obj c).kind = .client)
    (he : (w.obj c).eof = false) (up : Bool) (d : List UInt8) (hd : d.length ≤ 8191) (a : UInt8)
    (hc : wireCommands (w.obj c).gotEscape d = [a]) (hdata : wireData (w.obj c).gotEscape d = [])
    (hs : w.step env (.poll c up (some (.data d)) none) = some w') :
    ∃ w1 e, w.act env c a = some w1 ∧ w' = w1.mod c (fun o => { o with gotEscape := e }) := by
  have ci := h.finv.e.cl c hl hk
  obtain ⟨_, hr⟩ := poll_read h c hl (Or.inl (ci.pin he)) up _ hs
  unfold World.read at hr
  rw [if_neg (by simp [ci.fd]), if_neg (by simp [hk]), if_neg (by rw [hk]; simp)] at hr
  simp only [hk, Option.map_eq_some_iff] at hr
  rw [List.take_of_length_le (by rw [readBufSize_eq]; exact hd)] at hr
  obtain ⟨w1, h1, rfl⟩ := hr
  obtain ⟨u1, u2, u3⟩ := unesc_data (w.obj c).gotEscape d
  rw [u2, hc] at h1
  simp only [World.acts] at h1
  cases ha : w.act env c a with
  | none => rw [ha] at h1; simp at h1
  | some v =>
    rw [ha, Option.bind_some, Option.some.injEq] at h1
    subst h1
    exact ⟨v, _, rfl, by rw [u1, hdata, deliver_nil]⟩

/-- Writing to each of some objects. -/
theorem foldl_each (g : World → Nat → World) (k : Obj → Obj) (hg : ∀ v i, (g v i).obj i = k (v.obj i)) (ho : ∀ v i j, j ≠ i → (g v i).obj j = v.obj j) :
    ∀ (l : List Nat) (w : World), l.Nodup → ∀ j, (l.foldl g w).obj j = if j ∈ l then k (w.obj j) else w.obj j
  | [], w, _, j => by simp
  | i :: l, w, hn, j => by
    rw [List.foldl_cons, foldl_each g k hg ho l _ (List.nodup_cons.1 hn).2 j]
    by_cases hj : j = i
    · subst hj
      rw [if_neg (List.nodup_cons.1 hn).1, if_pos (List.mem_cons_self), hg]
    · rw [ho _ _ _ hj]
      by_cases hm : j ∈ l
      · rw [if_pos hm, if_pos (List.mem_cons_of_mem _ hm)]
      · rw [if_neg hm, if_neg (by simp [hj, hm])]

theorem break1_self (w : World) (i : Nat) : (w.break1 i).obj i = (w.obj i).write (breakData (w.obj i)) false := by
  have hnil : ∀ o : Obj, o.write [] false = o := fun o => by unfold Obj.write; rw [if_pos rfl]
  unfold World.break1 breakData
  cases hk : (w.obj i).kind <;> dsimp only
  case telnet =>
    split
    · rw [World.mod_self]; rfl
    · rw [hnil]
  case process => rw [World.mod_self]
  all_goals rw [hnil]

theorem break1_fx (w : World) (i : Nat) : (w.break1 i).fx = w.fx ++ if breakLine (w.obj i) then [.brk i] else [] := by
  unfold World.break1 breakLine
  cases hk : (w.obj i).kind <;> dsimp only
  case telnet => split <;> simp <;> rfl
  all_goals first | rfl | (simp; done) | (simp; rfl)

theorem breaks_fx : ∀ (l : List Nat) (w : World), l.Nodup →
    (l.foldl World.break1 w).fx = w.fx ++ (l.filter (fun i => breakLine (w.obj i))).map Fx.brk
  | [], w, _ => by simp
  | i :: l, w, hn => by
    rw [List.foldl_cons, breaks_fx l _ (List.nodup_cons.1 hn).2, break1_fx, List.append_assoc]
    congr 1
    have e : l.filter (fun j => breakLine ((w.break1 i).obj j)) = l.filter (fun j => breakLine (w.obj j)) := by
      apply List.filter_congr
      intro j hj
      have hji : j ≠ i := fun e => (List.nodup_cons.1 hn).1 (e ▸ hj)
      rw [break1_other w hji]
    rw [e, List.filter_cons]
    split <;> simp

/-- What is written to an object that has not seen its end. -/
theorem write_pend {o : Obj} (he : o.eof = false) (d : List UInt8) (hd : d.length < 16384) : (o.write d false).pend = lastN queueCap (o.pend ++ d) ∨ d = [] := by
  by_cases h0 : d = []
  · exact Or.inr h0
  · left
    unfold Obj.write
    rw [if_neg h0, if_neg (by rw [he]; decide), if_neg (fun h => by have := h.1; simp at this)]
    dsimp only
    unfold enq
    have : ¬ d.length ≥ objBufSize := by rw [objBufSize_eq]; omega
    rw [if_neg this]

/-- C68. A break command acts on exactly the consoles the client writes to: a break is appended to the data of a program or of a connected
telnet console, a serial or IPMI line is told once to send a break, and nothing else is written to any object. -/
theorem C68_break {env : Env} {w w' : World} (h : Reachable env w) (c : Nat) (hl : c ∈ w.live) (hk : (w.obj c).kind = .client)
    (he : (w.obj c).eof = false) (up : Bool) (d : List UInt8) (hd : d.length ≤ 8191)
    (hc : wireCommands (w.obj c).gotEscape d = [0x42]) (hdata : wireData (w.obj c).gotEscape d = [])
    (hs : w.step env (.poll c up (some (.data d)) none) = some w') :
    w'.fx = w.fx ++ ((w.obj c).readers.filter (fun i => breakLine (w.obj i))).map Fx.brk ∧
    (∀ i ∈ (w.obj c).readers, (w.obj i).eof = false → (w'.obj i).pend = lastN queueCap ((w.obj i).pend ++ breakData (w.obj i))) ∧
    ∀ i, i ∉ (w.obj c).readers → (w'.obj i).pend = (w.obj i).pend := by
  obtain ⟨w1, e, h1, rfl⟩ := single_cmd h c hl hk he up d hd _ hc hdata hs
  unfold World.act at h1
  rw [if_pos rfl, Option.some.injEq] at h1
  subst h1
  have nd := h.inv.inv.l.ndR c
  have key := foldl_each World.break1 (fun o => o.write (breakData o) false) break1_self (fun v i j hj => break1_other v hj) _ w nd
  have pm : ∀ (v : World) i, ((v.mod c (fun o => { o with gotEscape := e })).obj i).pend = (v.obj i).pend := by
    intro v i; rw [World.mod_obj]; split <;> rfl
  refine ⟨breaks_fx _ w nd, fun i hi hei => ?_, fun i hi => ?_⟩
  · rw [pm, key, if_pos hi]
    rcases write_pend hei (breakData (w.obj i)) (by unfold breakData; split <;> (try split) <;> decide) with g | g
    · exact g
    · rw [g, List.append_nil, lastN_eq_self ((h.inv.inv.oi i).cap)]
      unfold Obj.write; rw [if_pos rfl]
  · rw [pm, key, if_neg hi]

/-- C68. A delete command appends DEL to the data of exactly the consoles the client writes to. -/
theorem C68_delete {env : Env} {w w' : World} (h : Reachable env w) (c : Nat) (hl : c ∈ w.live) (hk : (w.obj c).kind = .client)
    (he : (w.obj c).eof = false) (up : Bool) (d : List UInt8) (hd : d.length ≤ 8191)
    (hc : wireCommands (w.obj c).gotEscape d = [0x44]) (hdata : wireData (w.obj c).gotEscape d = [])
    (hs : w.step env (.poll c up (some (.data d)) none) = some w') :
    (∀ i ∈ (w.obj c).readers, (w.obj i).eof = false → (w'.obj i).pend = lastN queueCap ((w.obj i).pend ++ [0x7F])) ∧
    ∀ i, i ∉ (w.obj c).readers → (w'.obj i).pend = (w.obj i).pend := by
  obtain ⟨w1, e, h1, rfl⟩ := single_cmd h c hl hk he up d hd _ hc hdata hs
  unfold World.act at h1
  rw [if_neg (by decide), if_pos rfl, Option.some.injEq] at h1
  subst h1
  have nd := h.inv.inv.l.ndR c
  have key := foldl_each (fun w i => w.mod i (·.write [0x7F] false)) (fun o => o.write [0x7F] false) (fun v i => World.mod_self ..)
    (fun v i j hj => World.mod_ne _ _ hj) _ w nd
  have pm : ∀ (v : World) i, ((v.mod c (fun o => { o with gotEscape := e })).obj i).pend = (v.obj i).pend := by
    intro v i; rw [World.mod_obj]; split <;> rfl
  refine ⟨fun i hi hei => ?_, fun i hi => ?_⟩
  · rw [pm, key, if_pos hi]
    rcases write_pend hei [0x7F] (by decide) with g | g
    · exact g
    · simp at g
  · rw [pm, key, if_neg hi]

/-- C68. A quiet command flips quiet mode of this client and of nobody else, and the confirmation is given in either mode. -/
theorem C68_quiet {env : Env} {w w' : World} (h : Reachable env w) (c : Nat) (hl : c ∈ w.live) (hk : (w.obj c).kind = .client)
    (he : (w.obj c).eof = false) (up : Bool) (d : List UInt8) (hd : d.length ≤ 8191)
    (hc : wireCommands (w.obj c).gotEscape d = [0x51]) (hdata : wireData (w.obj c).gotEscape d = [])
    (hs : w.step env (.poll c up (some (.data d)) none) = some w') :
    (w'.obj c).quiet = !(w.obj c).quiet ∧ (∀ i, i ≠ c → w'.obj i = w.obj i) ∧
    ∀ n, n = (if (w.obj c).quiet then Note.quietOff else .quietOn) → 0 < (env.txt n w.tick).length → (env.txt n w.tick).length < 16384 →
      (w'.obj c).pend = lastN queueCap ((w.obj c).pend ++ env.txt n w.tick) := by
  obtain ⟨w1, e, h1, rfl⟩ := single_cmd h c hl hk he up d hd _ hc hdata hs
  unfold World.act at h1
  rw [if_neg (by decide), if_neg (by decide), if_neg (by decide), if_neg (by decide), if_neg (by decide), if_neg (by decide), if_pos rfl,
    Option.some.injEq] at h1
  subst h1
  refine ⟨?_, fun i hi => ?_, fun n hn h0 hlen => ?_⟩
  · rw [World.mod_self, World.mod_self]
    dsimp only
    rcases Obj.write_cases { w.obj c with quiet := !(w.obj c).quiet } (env.txt (if (!(w.obj c).quiet) = true then .quietOn else .quietOff) w.tick) false with g | ⟨_, g⟩ <;>
      rw [g]
  · rw [World.mod_ne _ _ hi, World.mod_ne _ _ hi]
  · rw [World.mod_self, World.mod_self]
    dsimp only
    have : (if (!(w.obj c).quiet) = true then Note.quietOn else .quietOff) = n := by
      rw [hn]; cases (w.obj c).quiet <;> rfl
    rw [this]
    rcases write_pend (o := { w.obj c with quiet := !(w.obj c).quiet }) he _ hlen with g | g
    · exact g
    · rw [g] at h0; simp at h0

/-- C68. A reset command of a client that writes to one console starts its reset program once, if one is configured, none is running and the
system can start one; it starts nothing if none is configured or one is running. -/
theorem C68_reset {env : Env} {w w' : World} (h : Reachable env w) (c con : Nat) (hl : c ∈ w.live) (hk : (w.obj c).kind = .client)
    (he : (w.obj c).eof = false) (hr : (w.obj c).readers = [con]) (up : Bool) (d : List UInt8) (hd : d.length ≤ 8191)
    (hc : wireCommands (w.obj c).gotEscape d = [0x52]) (hdata : wireData (w.obj c).gotEscape d = [])
    (hs : w.step env (.poll c up (some (.data d)) none) = some w') :
    (∀ pid, (w.obj con).resetCmd = true → (w.obj con).resetPid = none → env.fmtOk con w.tick = true → env.fork w.tick = some pid →
      w'.fx = w.fx ++ [.resetStart con pid] ∧ w'.running = w.running ++ [(con, pid)]) ∧
    ((w.obj con).resetCmd = false ∨ (w.obj con).resetPid ≠ none → w'.fx = w.fx ∧ w'.running = w.running) := by
  obtain ⟨w1, e, h1, rfl⟩ := single_cmd h c hl hk he up d hd _ hc hdata hs
  unfold World.act at h1
  rw [if_neg (by decide), if_neg (by decide), if_neg (by decide), if_neg (by decide), if_neg (by decide), if_neg (by decide), if_neg (by decide),
    if_pos rfl, Option.some.injEq, hr, List.foldl_cons, List.foldl_nil] at h1
  subst h1
  have nfx : ∀ (l : List Nat) (v : World) (n : Note), (l.foldl (fun w i => w.note env n i) v).fx = v.fx ∧
      (l.foldl (fun w i => w.note env n i) v).running = v.running := by
    intro l
    induction l with
    | nil => intro v n; exact ⟨rfl, rfl⟩
    | cons a l ih => intro v n; rw [List.foldl_cons]; exact ih _ n
  have nt : ∀ (v : World) (n : Note), (v.notify env con n).fx = v.fx ∧ (v.notify env con n).running = v.running := by
    intro v n
    unfold World.notify
    dsimp only
    rw [(nfx _ _ n).1, (nfx _ _ n).1, (nfx _ _ n).2, (nfx _ _ n).2]; exact ⟨rfl, rfl⟩
  refine ⟨fun pid r1 r2 r3 r4 => ?_, fun hno => ?_⟩
  · show (w.reset1 env c con).fx = _ ∧ (w.reset1 env c con).running = _
    unfold World.reset1
    dsimp only
    rw [if_neg (by simp [r1]), if_neg (by simp [r2]), if_neg (by simp [r3]), r4]
    dsimp only
    rw [(nt _ _).1, (nt _ _).2]; exact ⟨rfl, rfl⟩
  · show (w.reset1 env c con).fx = _ ∧ (w.reset1 env c con).running = _
    unfold World.reset1
    dsimp only
    by_cases r1 : (w.obj con).resetCmd = false
    · rw [if_pos r1]; exact ⟨rfl, rfl⟩
    · have r2 : (w.obj con).resetPid.isSome = true := by
        rcases hno with g | g
        · exact absurd g r1
        · exact Option.isSome_iff_ne_none.2 g
      rw [if_neg r1, if_pos r2]
      exact nt _ _

/-- The reset programs that are started by one command, in order: for each of the consoles the one configured, if none is running, its command line can be made and the system
can start a process; `t` is the number of the first attempt. -/
def Spec.resetStarts (env : Env) (obj : Nat → Obj) : Nat → List Nat → List (Nat × Nat)
  | _, [] => []
  | t, con :: l =>
    (if (obj con).resetCmd = true ∧ (obj con).resetPid = none ∧ env.fmtOk con t = true then ((env.fork t).map fun pid => (con, pid)).toList else []) ++ resetStarts env obj (t + 1) l

/-- What a notice leaves alone. -/
structure ResetSame (w w' : World) : Prop where
  fx : w'.fx = w.fx
  running : w'.running = w.running
  tick : w'.tick = w.tick
  obj : ∀ j, (w'.obj j).resetCmd = (w.obj j).resetCmd ∧ (w'.obj j).resetPid = (w.obj j).resetPid

theorem ResetSame.notes {env : Env} (n : Note) : ∀ (l : List Nat) (v : World), ResetSame v (l.foldl (fun w i => w.note env n i) v)
  | [], v => ⟨rfl, rfl, rfl, fun _ => ⟨rfl, rfl⟩⟩
  | a :: l, v => by
    obtain ⟨h1, h2, h3, h4⟩ := ResetSame.notes (env := env) n l (v.note env n a)
    rw [List.foldl_cons]
    refine ⟨h1, h2, h3, fun j => ?_⟩
    rw [(h4 j).1, (h4 j).2]
    show ((v.mod a _).obj j).resetCmd = _ ∧ ((v.mod a _).obj j).resetPid = _
    rw [World.mod_obj]
    split
    · rcases (v.obj j).write_cases (env.txt n v.tick) true with e | ⟨_, e⟩ <;> rw [e] <;> exact ⟨rfl, rfl⟩
    · exact ⟨rfl, rfl⟩

theorem ResetSame.notify {env : Env} (v : World) (con : Nat) (n : Note) : ResetSame v (v.notify env con n) := by
  unfold World.notify
  dsimp only
  obtain ⟨a1, a2, a3, a4⟩ := ResetSame.notes (env := env) n (v.obj con).readers v
  obtain ⟨b1, b2, b3, b4⟩ := ResetSame.notes (env := env) n ((v.obj con).writers.filter fun i => !(v.obj con).readers.contains i) ((v.obj con).readers.foldl (fun w i => w.note env n i) v)
  exact ⟨b1.trans a1, b2.trans a2, b3.trans a3, fun j => ⟨(b4 j).1.trans (a4 j).1, (b4 j).2.trans (a4 j).2⟩⟩

/-- One console. -/
theorem reset1_starts (env : Env) (w : World) (c con : Nat) :
    (w.reset1 env c con).fx = w.fx ++ (resetStarts env w.obj w.tick [con]).map (fun p => .resetStart p.1 p.2) ∧
    (w.reset1 env c con).running = w.running ++ resetStarts env w.obj w.tick [con] ∧ (w.reset1 env c con).tick = w.tick + 1 ∧
    (∀ j, ((w.reset1 env c con).obj j).resetCmd = (w.obj j).resetCmd) ∧ (∀ j, j ≠ con → ((w.reset1 env c con).obj j).resetPid = (w.obj j).resetPid) ∧
    ((w.reset1 env c con).obj con).resetPid = ((resetStarts env w.obj w.tick [con]).head?.map (·.2)).or (w.obj con).resetPid := by
  have same : ∀ v : World, ResetSame w v → resetStarts env w.obj w.tick [con] = [] →
      ({ v with tick := v.tick + 1 } : World).fx = w.fx ++ (resetStarts env w.obj w.tick [con]).map (fun p => .resetStart p.1 p.2) ∧
      ({ v with tick := v.tick + 1 } : World).running = w.running ++ resetStarts env w.obj w.tick [con] ∧ ({ v with tick := v.tick + 1 } : World).tick = w.tick + 1 ∧
      (∀ j, ((({ v with tick := v.tick + 1 } : World)).obj j).resetCmd = (w.obj j).resetCmd) ∧
      (∀ j, j ≠ con → ((({ v with tick := v.tick + 1 } : World)).obj j).resetPid = (w.obj j).resetPid) ∧
      ((({ v with tick := v.tick + 1 } : World)).obj con).resetPid = ((resetStarts env w.obj w.tick [con]).head?.map (·.2)).or (w.obj con).resetPid := by
    intro v h e
    rw [e]
    exact ⟨by rw [h.fx]; simp, by rw [h.running]; simp, by rw [h.tick], fun j => (h.obj j).1, fun j _ => (h.obj j).2, (h.obj con).2⟩
  unfold World.reset1
  dsimp only
  by_cases h1 : (w.obj con).resetCmd = false
  · rw [if_pos h1]
    refine same w ⟨rfl, rfl, rfl, fun _ => ⟨rfl, rfl⟩⟩ ?_
    simp [resetStarts, h1]
  rw [if_neg h1]
  have h1 : (w.obj con).resetCmd = true := by simpa using h1
  by_cases h2 : (w.obj con).resetPid.isSome = true
  · rw [if_pos h2]
    refine same _ (.notify _ _ _) ?_
    have : (w.obj con).resetPid ≠ none := Option.isSome_iff_ne_none.1 h2
    simp [resetStarts, this]
  rw [if_neg h2]
  have h2 : (w.obj con).resetPid = none := by simpa using h2
  by_cases h3 : env.fmtOk con w.tick = false
  · rw [if_pos h3]
    refine same _ (.notify _ _ _) ?_
    simp [resetStarts, h3]
  rw [if_neg h3]
  have h3 : env.fmtOk con w.tick = true := by simpa using h3
  cases h4 : env.fork w.tick with
  | none =>
    refine same _ (.notify _ _ _) ?_
    simp [resetStarts, h4]
  | some pid =>
    have e : resetStarts env w.obj w.tick [con] = [(con, pid)] := by simp [resetStarts, h1, h2, h3, h4]
    rw [e]
    dsimp only
    have n := ResetSame.notify (env := env) (({ w with running := w.running ++ [(con, pid)], fx := w.fx ++ [.resetStart con pid] } : World).mod con
      (fun o => { o with resetPid := some pid, resetTimer := true })) con (.resetBy c con)
    refine ⟨n.fx, n.running, by rw [n.tick]; rfl, fun j => ?_, fun j hj => ?_, ?_⟩
    · rw [(n.obj j).1, World.mod_obj]; split <;> rfl
    · rw [(n.obj j).2, World.mod_ne _ _ hj]
    · rw [(n.obj con).2, World.mod_self]; rfl

theorem resetStarts_congr (env : Env) {f g : Nat → Obj} : ∀ (l : List Nat) (t : Nat), (∀ j ∈ l, (f j).resetCmd = (g j).resetCmd ∧ (f j).resetPid = (g j).resetPid) →
    resetStarts env f t l = resetStarts env g t l
  | [], _, _ => rfl
  | con :: l, t, h => by
    rw [resetStarts, resetStarts, resetStarts_congr env l (t + 1) fun j hj => h j (List.mem_cons_of_mem _ hj), (h con (List.mem_cons_self ..)).1, (h con (List.mem_cons_self ..)).2]

theorem resets_starts (env : Env) (c : Nat) : ∀ (l : List Nat) (w : World), l.Nodup →
    (l.foldl (fun w con => w.reset1 env c con) w).fx = w.fx ++ (resetStarts env w.obj w.tick l).map (fun p => .resetStart p.1 p.2) ∧
    (l.foldl (fun w con => w.reset1 env c con) w).running = w.running ++ resetStarts env w.obj w.tick l
  | [], w, _ => by simp [resetStarts]
  | con :: l, w, hn => by
    obtain ⟨h1, h2, h3, h4, h5, -⟩ := reset1_starts env w c con
    rw [List.nodup_cons] at hn
    obtain ⟨i1, i2⟩ := resets_starts env c l (w.reset1 env c con) hn.2
    have e : resetStarts env (w.reset1 env c con).obj (w.reset1 env c con).tick l = resetStarts env w.obj (w.tick + 1) l := by
      rw [h3]
      exact resetStarts_congr env l _ fun j hj => ⟨h4 j, h5 j fun e => hn.1 (e ▸ hj)⟩
    have e2 : resetStarts env w.obj w.tick (con :: l) = resetStarts env w.obj w.tick [con] ++ resetStarts env w.obj (w.tick + 1) l := by
      simp only [resetStarts, List.append_nil]
    rw [List.foldl_cons, i1, i2, e, h1, h2, e2]
    simp

/-- C68. A reset command of any client, also one that broadcasts: the reset programs of exactly the consoles it writes to are started, once each and in order, as far as one
is configured, none is running for the console and the system can start it. -/
theorem C68_reset_all {env : Env} {w w' : World} (h : Reachable env w) (c : Nat) (hl : c ∈ w.live) (hk : (w.obj c).kind = .client)
    (he : (w.obj c).eof = false) (up : Bool) (d : List UInt8) (hd : d.length ≤ 8191)
    (hc : wireCommands (w.obj c).gotEscape d = [0x52]) (hdata : wireData (w.obj c).gotEscape d = [])
    (hs : w.step env (.poll c up (some (.data d)) none) = some w') :
    w'.fx = w.fx ++ (resetStarts env w.obj w.tick (w.obj c).readers).map (fun p => .resetStart p.1 p.2) ∧
    w'.running = w.running ++ resetStarts env w.obj w.tick (w.obj c).readers := by
  obtain ⟨w1, e, h1, rfl⟩ := single_cmd h c hl hk he up d hd _ hc hdata hs
  unfold World.act at h1
  rw [if_neg (by decide), if_neg (by decide), if_neg (by decide), if_neg (by decide), if_neg (by decide), if_neg (by decide), if_neg (by decide),
    if_pos rfl, Option.some.injEq] at h1
  subst h1
  exact resets_starts env c _ w (h.inv.inv.l.ndR c)

/-- Client 10 broadcasts to three consoles; the second has no reset program. -/
example : let w := ((World.boot [{ kind := .serial, reset := true }, { kind := .telnet }, { kind := .process, reset := true }]).run Demo.env
      [.check { cmd := .connect, consoles := [0, 2, 4], bcast := true }, .grant 10 0]).getD (World.boot [])
    10 ∈ w.live ∧ (w.obj 10).kind = .client ∧ (w.obj 10).eof = false ∧ (w.obj 10).readers = [0, 2, 4] ∧ (w.obj 10).bcast = true ∧
    resetStarts Demo.env w.obj w.tick (w.obj 10).readers = [(0, 102), (4, 104)] ∧
    (w.step Demo.env (.poll 10 true (some (.data [0xFF, 0x52])) none)).map (fun v => (v.fx, v.running)) = some ([.resetStart 0 102, .resetStart 4 104], [(0, 102), (4, 104)]) := by
  decide +kernel

/-! Cases that meet the hypotheses: client 10 of the serial console 0 sends a break, DEL, quiet, reset. -/

example : let w := Demo.after Demo.three
    Reachable Demo.env w ∧ 10 ∈ w.live ∧ (w.obj 10).kind = .client ∧ (w.obj 10).eof = false ∧ (w.obj 10).readers = [0] ∧
    wireCommands (w.obj 10).gotEscape [0xFF, 0x42] = [0x42] ∧ wireData (w.obj 10).gotEscape [0xFF, 0x42] = [] ∧
    (w.step Demo.env (.poll 10 true (some (.data [0xFF, 0x42])) none)).map (fun v => v.fx) = some (w.fx ++ [.brk 0]) ∧
    (w.step Demo.env (.poll 10 true (some (.data [0xFF, 0x44])) none)).map (fun v => (v.obj 0).pend) = some ((w.obj 0).pend ++ [0x7F]) ∧
    (w.step Demo.env (.poll 10 true (some (.data [0xFF, 0x51])) none)).map (fun v => (v.obj 10).quiet) = some true ∧
    (w.obj 0).resetCmd = true ∧ (w.obj 0).resetPid = none ∧ (Demo.env.fork w.tick).isSome = true :=
  ⟨Demo.reach _ (by decide +kernel), by decide +kernel, by decide +kernel, by decide +kernel, by decide +kernel, by decide +kernel, by decide +kernel,
    by decide +kernel, by decide +kernel, by decide +kernel, by decide +kernel, by decide +kernel, by decide +kernel⟩

/-- Client 10 connects to the telnet console 2 and sends a break. -/
example : let w := Demo.after [.connUp 0, .connUp 2, .check ⟨.connect, [2], false, false, false, false⟩, .grant 10 0]
    Reachable Demo.env w ∧ (w.obj 10).readers = [2] ∧ breakData (w.obj 2) = [0xFF, 0xF3] ∧
    (w.step Demo.env (.poll 10 true (some (.data [0xFF, 0x42])) none)).map (fun v => (v.obj 2).pend) = some ((w.obj 2).pend ++ [0xFF, 0xF3]) :=
  ⟨Demo.reach _ (by decide +kernel), by decide +kernel, by decide +kernel, by decide +kernel⟩

end Conman
