import Verif.Lemma.Stop

/-
C107: the end of the daemon.
`w.stop pidFile pgid` is what it does after SIGTERM or SIGINT; `d.stop pidFile pgid` are the files then, and the same.
-/
namespace Conman
open Spec

variable {env : Env} {w : World}

/-- C107. Whatever happened before: every object that is open is closed at the end, once; nothing else is closed. -/
theorem C107_closed (h : Reachable env w) (p : Bool) (g : Option Nat) (i : Nat) :
    (w.stop p g).count (.close i) = if i ∈ w.live ∧ (w.obj i).fd = true then 1 else 0 := by
  rw [stop_count w p g h.nodup _ (i := i) rfl]
  by_cases hi : i ∈ w.live
  · rw [if_pos hi, bye_close]
    by_cases hf : (w.obj i).fd = true
    · rw [if_pos hf, if_pos ⟨hi, hf⟩]
    · rw [if_neg hf, if_neg (fun x => hf x.2)]
  · rw [if_neg hi, if_neg (fun x => hi x.1)]

/-- C107. Every client that is connected is reported as disconnected, once; no other object is. -/
theorem C107_left (h : Reachable env w) (p : Bool) (g : Option Nat) (i : Nat) :
    (w.stop p g).count (.left i) = if i ∈ w.live ∧ (w.obj i).kind = .client then 1 else 0 := by
  rw [stop_count w p g h.nodup _ (i := i) rfl]
  by_cases hi : i ∈ w.live
  · rw [if_pos hi, bye_left]
    by_cases hf : (w.obj i).kind = .client
    · rw [if_pos hf, if_pos ⟨hi, hf⟩]
    · rw [if_neg hf, if_neg (fun x => hf x.2)]
  · rw [if_neg hi, if_neg (fun x => hi x.1)]

/-- C107. It is reported that bytes for an object were not written if and only if there are such bytes; their number is the one reported. -/
theorem C107_unwritten (p : Bool) (g : Option Nat) (i n : Nat) :
    .unwritten i n ∈ w.stop p g ↔ i ∈ w.live ∧ (w.obj i).pend.length = n ∧ n ≠ 0 := by
  rw [stop_mem w p g _ (i := i) rfl]
  refine and_congr_right fun _ => ?_
  unfold Obj.bye
  rw [List.mem_append, List.mem_append]
  constructor
  · rintro ((h | h) | h)
    · split at h
      · rw [List.mem_singleton, EndFx.unwritten.injEq] at h
        rename_i hp
        exact ⟨h.2.symm, by omega⟩
      · cases h
    · split at h
      · rw [List.mem_singleton] at h; cases h
      · split at h
        · rw [List.mem_singleton] at h; cases h
        · cases h
      · cases h
    · split at h
      · rw [List.mem_singleton] at h; cases h
      · cases h
  · rintro ⟨rfl, h⟩
    refine .inl (.inl ?_)
    rw [if_pos (by omega), List.mem_singleton]

/-- C107. The settings of every serial line that is open are restored, before it is closed. -/
theorem C107_serial (h : Reachable env w) (p : Bool) (g : Option Nat) {i : Nat} (hi : i ∈ w.live) (hk : (w.obj i).kind = .serial) (hf : (w.obj i).fd = true) :
    ∃ x y, w.stop p g = x ++ [.restore i, .close i] ++ y ∧ .restore i ∉ x ++ y ∧ .close i ∉ x ++ y := by
  obtain ⟨x, y, e, ho⟩ := stop_split w p g h.nodup hi
  have hb : (w.obj i).bye i = (if (w.obj i).pend.length > 0 then [.unwritten i (w.obj i).pend.length] else []) ++ [.restore i, .close i] := by
    unfold Obj.bye
    rw [hk, if_pos hf]
    dsimp only
    rw [if_pos hf, List.append_assoc]; rfl
  refine ⟨x ++ (if (w.obj i).pend.length > 0 then [.unwritten i (w.obj i).pend.length] else []), y, by rw [e, hb]; simp only [List.append_assoc], ?_, ?_⟩
  · intro hm
    rw [List.mem_append, List.mem_append] at hm
    rcases hm with (hm | hm) | hm
    · exact ho _ (List.mem_append_left _ hm) rfl
    · split at hm
      · rw [List.mem_singleton] at hm; cases hm
      · cases hm
    · exact ho _ (List.mem_append_right _ hm) rfl
  · intro hm
    rw [List.mem_append, List.mem_append] at hm
    rcases hm with (hm | hm) | hm
    · exact ho _ (List.mem_append_left _ hm) rfl
    · split at hm
      · rw [List.mem_singleton] at hm; cases hm
      · cases hm
    · exact ho _ (List.mem_append_right _ hm) rfl

/-- C107. The pid file is removed and the listening socket closed before anything is done to a console, a log or a client; SIGTERM to the programs comes last. -/
theorem C107_order (p : Bool) (g : Option Nat) : ∃ m, w.stop p g = (if p then [.pidFile] else []) ++ [.listen] ++ m ++ (g.map EndFx.term).toList ∧
    ∀ e ∈ m, (∃ i ∈ w.live, e = .left i ∨ e = .restore i ∨ e = .close i ∨ ∃ n, e = .unwritten i n) := by
  refine ⟨w.live.flatMap (fun i => (w.obj i).bye i), rfl, fun e he => ?_⟩
  obtain ⟨i, hi, h⟩ := List.mem_flatMap.1 he
  refine ⟨i, hi, ?_⟩
  have := bye_of _ _ _ h
  cases e with
  | unwritten j n => cases this; exact .inr (.inr (.inr ⟨n, rfl⟩))
  | left j => cases this; exact .inl rfl
  | restore j => cases this; exact .inr (.inl rfl)
  | close j => cases this; exact .inr (.inr (.inl rfl))
  | pidFile => cases this
  | listen => cases this
  | term g => cases this

/-! ### The log files -/

variable {c : SConf} {pid : Int} {fs : LDir} {held : Nat → Bool} {es es' : List DiskEv} {d d' : Disk}

/- Full statement of C107 for logs: when the daemon has ended, everything a console said is in its log file.  It does not hold: what waits is not written (`C107_last`,
`C107_lost`). -/

/-- C107 in part: if no write to the log failed and it was never more than full, then at the end the log file lacks exactly the last bytes of what it should hold (the
output of the console laid out as configured, with notices in between), and their number is reported; if nothing is reported for the log, nothing is missing.
Missing: what was waiting (`C107_last`), and what is missing in `C100_complete_partial`. -/
theorem C107_log_partial (he : LogEnv env) (hf : fs.Ok) {n : Nat} {k : Console} {ln : List UInt8} {o : LogOpt} (hn : c.consoles[n]? = some k) (hl : k.log = some (ln, o))
    (hp : o.sanitize = true ∨ o.timestamp = true) {nm : List UInt8} (hu : oneName fs nm)
    (hr : (Disk.boot c fs held false).run c pid env es = some d) (ha : leftAlone c pid env nm (Disk.boot c fs held false) es = true)
    (ho : onlyLog c pid nm (some (2 * n + 1)) es) (hlen : ∀ i up x wr, .step (.poll i up (some (.data x)) wr) ∈ es → x.length ≤ 8191)
    (hg : (d.w.obj (2 * n + 1)).gen = 0) (hfull : neverFull env c.world (2 * n + 1) (daemonSteps c pid env (Disk.boot c fs held false) es) = true) (p : Bool) (g : Option Nat) :
    ∃ evs lost, NotesOk env evs ∧ logOuts evs = saidAll env c.world (2 * n) (daemonSteps c pid env (Disk.boot c fs held false) es) ∧
      fileAt (d.stop p g).1 nm ++ lost = fileAt fs nm ++ logPage ⟨o.sanitize, o.timestamp⟩ (env.clk (2 * n + 1)) 0 [] evs ∧
      (lost ≠ [] → .unwritten (2 * n + 1) lost.length ∈ (d.stop p g).2) ∧ ((∀ m, .unwritten (2 * n + 1) m ∉ (d.stop p g).2) → lost = []) := by
  obtain ⟨evs, h1, h2, h3⟩ := C100_complete_partial he hf hn hl hp hu hr ha ho hlen hg hfull
  have hlive : (2 * n + 1) ∈ d.w.live := by
    have h0 : Reachable env c.world := ⟨_, [], c.entry_console, rfl⟩
    exact ((disk_run es (disk_boot c fs held false nm (some (2 * n + 1)) hf hu h0.finv fun m hm => by cases hm; exact world_log c n k (ln, o) hn hl) hr ha ho).isLog _ rfl).2
  have key : (d.w.obj (2 * n + 1)).pend ≠ [] → .unwritten (2 * n + 1) (d.w.obj (2 * n + 1)).pend.length ∈ d.w.stop p g := fun hne =>
    (C107_unwritten p g _ _).2 ⟨hlive, rfl, fun h => hne (List.length_eq_zero_iff.1 h)⟩
  refine ⟨evs, (d.w.obj (2 * n + 1)).pend, h1, h2, h3, key, fun hm => ?_⟩
  exact Decidable.byContradiction fun hne => hm _ (key hne)

/-- C107 in part: the same for a log that is not processed.
Missing: as above. -/
theorem C107_log_raw_partial (he : LogEnv env) (hf : fs.Ok) {n : Nat} {k : Console} {ln : List UInt8} {o : LogOpt} (hn : c.consoles[n]? = some k) (hl : k.log = some (ln, o))
    (hp : o.sanitize = false ∧ o.timestamp = false) {nm : List UInt8} (hu : oneName fs nm)
    (hr : (Disk.boot c fs held false).run c pid env es = some d) (ha : leftAlone c pid env nm (Disk.boot c fs held false) es = true)
    (ho : onlyLog c pid nm (some (2 * n + 1)) es) (hlen : ∀ i up x wr, .step (.poll i up (some (.data x)) wr) ∈ es → x.length ≤ 8191)
    (hg : (d.w.obj (2 * n + 1)).gen = 0) (hfull : neverFull env c.world (2 * n + 1) (daemonSteps c pid env (Disk.boot c fs held false) es) = true) (p : Bool) (g : Option Nat) :
    ∃ (evs : List LogEv) (lost : List UInt8), NotesOk env evs ∧ logOuts evs = saidAll env c.world (2 * n) (daemonSteps c pid env (Disk.boot c fs held false) es) ∧
      fileAt (d.stop p g).1 nm ++ lost = fileAt fs nm ++ evs.flatMap LogEv.bytes ∧
      (lost ≠ [] → .unwritten (2 * n + 1) lost.length ∈ (d.stop p g).2) ∧ ((∀ m, .unwritten (2 * n + 1) m ∉ (d.stop p g).2) → lost = []) := by
  obtain ⟨evs, h1, h2, h3⟩ := C100_complete_raw_partial he hf hn hl hp hu hr ha ho hlen hg hfull
  have hlive : (2 * n + 1) ∈ d.w.live := by
    have h0 : Reachable env c.world := ⟨_, [], c.entry_console, rfl⟩
    exact ((disk_run es (disk_boot c fs held false nm (some (2 * n + 1)) hf hu h0.finv fun m hm => by cases hm; exact world_log c n k (ln, o) hn hl) hr ha ho).isLog _ rfl).2
  have key : (d.w.obj (2 * n + 1)).pend ≠ [] → .unwritten (2 * n + 1) (d.w.obj (2 * n + 1)).pend.length ∈ d.w.stop p g := fun hne =>
    (C107_unwritten p g _ _).2 ⟨hlive, rfl, fun h => hne (List.length_eq_zero_iff.1 h)⟩
  refine ⟨evs, (d.w.obj (2 * n + 1)).pend, h1, h2, h3, key, fun hm => ?_⟩
  exact Decidable.byContradiction fun hne => hm _ (key hne)

/-- C107, what fails: whatever consoles say between the last write to a log and the end is not in its file; the file then is the file at that write. -/
theorem C107_last (hf : fs.Ok) {n : Nat} {k : Console} {l : List UInt8 × LogOpt} (hn : c.consoles[n]? = some k) (hl : k.log = some l) {nm : List UInt8} (hu : oneName fs nm)
    (hr : (Disk.boot c fs held false).run c pid env es = some d) (hr' : d.run c pid env es' = some d')
    (ha : leftAlone c pid env nm (Disk.boot c fs held false) (es ++ es') = true) (ho : onlyLog c pid nm (some (2 * n + 1)) (es ++ es'))
    (hq : es'.all (noWrite (2 * n + 1)) = true) (p : Bool) (g : Option Nat) : fileAt (d'.stop p g).1 nm = fileAt d.fs nm := by
  have h2 : (Disk.boot c fs held false).run c pid env (es ++ es') = some d' := by rw [disk_append, hr]; exact hr'
  have a1 := C100_file hf hn hl hu hr (alone_append es es' _ ha) (fun m ok tm x hm => ho m ok tm x (List.mem_append_left _ hm))
  have a2 := C100_file hf hn hl hu h2 ha ho
  show fileAt d'.fs nm = _
  rw [a1, a2, disk_quiet es' hr' hq]

/-- C107, what fails: a reset command that still runs when the daemon ends is not told, as it has a process group of its own; its timer ends with the daemon. -/
theorem C107_reset_left (p : Bool) (g : Option Nat) {con q : Nat} (_hq : (con, q) ∈ w.running) (hg : ∀ x, g = some x → q ≠ x) :
    ∀ e ∈ w.stop p g, ∀ x, e = .term x → resetGroup q ≠ x := by
  rintro e he x rfl
  obtain ⟨m, e1, e2⟩ := C107_order (w := w) p g
  rw [e1, List.mem_append] at he
  rcases he with he | he
  · exfalso
    rw [List.mem_append, List.mem_append] at he
    rcases he with (he | he) | he
    · split at he
      · rw [List.mem_singleton] at he; cases he
      · cases he
    · rw [List.mem_singleton] at he; cases he
    · obtain ⟨i, -, h | h | h | ⟨n, h⟩⟩ := e2 _ he <;> cases h
  · cases g with
    | none => cases he
    | some y =>
      rw [Option.map_some, Option.toList_some, List.mem_singleton] at he
      cases he
      exact hg _ rfl

/-! ### Examples -/

/-- C107, what fails: console `p` says something in the last round before SIGTERM. It is not in the log file at the end; that bytes were not written is reported. -/
theorem C107_lost : ((Disk.boot telConf diskDir (fun _ => false) false).run telConf 7 Demo.env
      (diskEvs ++ [.step (.poll 0 true (some (.data [0x62, 0x63])) none)])).map (fun d =>
      (fileAt (d.stop true (some 5)).1 (bs "/tmp/p.log") == bs "old\nnna^[n") && ((d.stop true (some 5)).2 ==
        [.pidFile, .listen, .unwritten 0 15, .close 0, .unwritten 1 2, .close 1, .unwritten 2 15, .close 2, .close 3, .term 5])) = some true ∧
    [DiskEv.step (.poll 0 true (some (.data [0x62, 0x63])) none)].all (noWrite 1) = true ∧
    leftAlone telConf 7 Demo.env (bs "/tmp/p.log") (Disk.boot telConf diskDir (fun _ => false) false) (diskEvs ++ [.step (.poll 0 true (some (.data [0x62, 0x63])) none)]) = true := by
  decide +kernel

/-- A serial line with a reset command, and a client that is connected to it and resets it; then SIGTERM. -/
example : ((World.boot [{ kind := .serial, reset := true }]).run Demo.env
      [.connUp 0, .check { cmd := .connect, consoles := [0] }, .grant 7 0, .poll 7 true (some (.data [0xFF, 0x52, 0x61])) none]).map (fun w =>
      (w.live, (w.obj 0).fd, w.running, w.stop true (some 5))) =
    some ([0, 7], true, [(0, 103)], [.pidFile, .listen, .unwritten 0 1, .restore 0, .close 0, .unwritten 7 1, .left 7, .close 7, .term 5]) := by decide +kernel

end Conman
