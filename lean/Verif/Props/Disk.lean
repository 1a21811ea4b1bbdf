import Verif.Lemma.DiskNames
import Verif.Props.TelOutput

/-
C100: from the configuration file to the log file on disk.
Console number `n` of the configuration has the log object `2 * n + 1`; `fileAt fs nm` are the contents of the file of name `nm`.
-/
namespace Conman
open Spec

variable {c : SConf} {pid : Int} {env : Env} {fs : LDir} {held : Nat → Bool} {zero : Bool} {es : List DiskEv} {d : Disk}

/-- C100. Whatever happens - logs are opened or cannot be, opened again by SIGHUP, locked by others, writes fail, other files are renamed, removed or changed: a file
that is opened by the log of one console only, and that others leave alone, holds what it held at the start followed by exactly the bytes that were written to this log. -/
theorem C100_file (hf : fs.Ok) {n : Nat} {k : Console} {l : List UInt8 × LogOpt} (hn : c.consoles[n]? = some k) (hl : k.log = some l) {nm : List UInt8} (hu : oneName fs nm)
    (hr : (Disk.boot c fs held false).run c pid env es = some d) (ha : leftAlone c pid env nm (Disk.boot c fs held false) es = true)
    (ho : onlyLog c pid nm (some (2 * n + 1)) es) : fileAt d.fs nm = fileAt fs nm ++ sentTo (2 * n + 1) d.w.fx := by
  have h0 : Reachable env c.world := ⟨_, [], c.entry_console, rfl⟩
  obtain ⟨b, hb, e⟩ := (disk_run es (disk_boot c fs held false nm (some (2 * n + 1)) hf hu h0.finv fun m hm => by cases hm; exact world_log c n k l hn hl) hr ha ho).data
  rcases hb with rfl | ⟨_, hb, _⟩
  · exact e
  · cases hb

/-- C100. With `-z` the file is emptied before anything is written to it, or not at all (its log was not opened, or the first attempt failed); never later. -/
theorem C100_zero (hf : fs.Ok) {n : Nat} {k : Console} {l : List UInt8 × LogOpt} (hn : c.consoles[n]? = some k) (hl : k.log = some l) {nm : List UInt8} (hu : oneName fs nm)
    (hr : (Disk.boot c fs held true).run c pid env es = some d) (ha : leftAlone c pid env nm (Disk.boot c fs held true) es = true)
    (ho : onlyLog c pid nm (some (2 * n + 1)) es) :
    fileAt d.fs nm = sentTo (2 * n + 1) d.w.fx ∨ fileAt d.fs nm = fileAt fs nm ++ sentTo (2 * n + 1) d.w.fx := by
  have h0 : Reachable env c.world := ⟨_, [], c.entry_console, rfl⟩
  obtain ⟨b, hb, e⟩ := (disk_run es (disk_boot c fs held true nm (some (2 * n + 1)) hf hu h0.finv fun m hm => by cases hm; exact world_log c n k l hn hl) hr ha ho).data
  rcases hb with rfl | ⟨rfl, _, _⟩
  · exact .inr e
  · exact .inl e

/-- C100. A file that is no log file, and that others leave alone, stays as it is, with and without `-z`. -/
theorem C100_other_files (hf : fs.Ok) {nm : List UInt8} (hu : oneName fs nm)
    (hr : (Disk.boot c fs held zero).run c pid env es = some d) (ha : leftAlone c pid env nm (Disk.boot c fs held zero) es = true)
    (ho : onlyLog c pid nm none es) : fileAt d.fs nm = fileAt fs nm := by
  have h0 : Reachable env c.world := ⟨_, [], c.entry_console, rfl⟩
  obtain ⟨b, hb, e⟩ := (disk_run es (disk_boot c fs held zero nm none hf hu h0.finv fun m hm => by cases hm) hr ha ho).data
  rcases hb with rfl | ⟨_, _, hb⟩
  · rw [e]; exact List.append_nil _
  · exact absurd rfl hb

/-! ### Names -/

/-- C100. Whatever the configuration file is: if the names of log files have no conversion specifiers, the file named for a console is opened for the log of this console
only; a file not named there is not opened. -/
theorem C100_names_plain {cenv : CEnv} {cwd text : List UInt8} {ini : IpmiOpt} (hc : processConfig cenv text (createConf cwd ini) = some c)
    (hp : ∀ k ∈ c.consoles, ∀ l, k.log = some l → (0x25 : UInt8) ∉ l.1) :
    (∀ n k l, c.consoles[n]? = some k → k.log = some l → onlyLog c pid l.1 (some (2 * n + 1)) es) ∧
    ∀ nm, (∀ k ∈ c.consoles, ∀ l, k.log = some l → l.1 ≠ nm) → onlyLog c pid nm none es := by
  have hpw := List.pairwise_iff_getElem.1 (C71_logs_partial cenv text _ c rfl hc)
  have nm : ∀ m tm x, c.logName pid tm m = some (some x) → ∃ n k l, m = 2 * n + 1 ∧ c.consoles[n]? = some k ∧ k.log = some l ∧ x = l.1 := by
    intro m tm x h
    obtain ⟨n, k, l, h1, h2, h3, h4⟩ := logName_some c pid tm m x h
    rw [openName_plain _ _ _ (hp k (List.mem_of_getElem? h2) l h3)] at h4
    exact ⟨n, k, l, h1, h2, h3, by simpa using h4.symm⟩
  constructor
  · intro n k l hn hl m ok tm x _ hx
    obtain ⟨n', k', l', rfl, h2, h3, rfl⟩ := nm m tm x hx
    constructor
    · intro e
      have : n = n' := by
        apply Decidable.by_contra
        intro hne
        obtain ⟨l1, e1⟩ := List.getElem?_eq_some_iff.1 hn
        obtain ⟨l2, e2⟩ := List.getElem?_eq_some_iff.1 h2
        have p1 := hp k (List.mem_of_getElem? hn) l hl
        have p2 := hp k' (List.mem_of_getElem? h2) l' h3
        rcases Nat.lt_or_gt_of_ne hne with h | h
        · have := hpw n n' l1 l2 h
          rw [e1, e2] at this
          exact this l l' l'.1 hl h3 p1 (.inl ⟨p2, rfl⟩) (.inl ⟨p1, e⟩)
        · have := hpw n' n l2 l1 h
          rw [e1, e2] at this
          exact this l' l l.1 h3 hl p2 (.inl ⟨p1, rfl⟩) (.inl ⟨p2, e.symm⟩)
      rw [this]
    · intro e
      have : n = n' := by have := Option.some.inj e; omega
      subst this
      rw [hn] at h2; cases h2
      rw [hl] at h3; cases h3
      rfl
  · intro y hy m ok tm x _ hx
    obtain ⟨n', k', l', rfl, h2, h3, rfl⟩ := nm m tm x hx
    exact ⟨fun e => absurd e (hy k' (List.mem_of_getElem? h2) l' h3), fun e => by cases e⟩

/-- C100. Whatever the configuration file is: if the logs of all consoles are given by one name with `%N` in it, as with `GLOBAL log`, and names of consoles are made of
letters, digits and other printable characters without a slash, then each console has the file with its name in place of `%N` for itself. -/
theorem C100_names_global {cenv : CEnv} {cwd text : List UInt8} {ini : IpmiOpt} (hc : processConfig cenv text (createConf cwd ini) = some c)
    {pre post : List UInt8} (h1 : (0x25 : UInt8) ∉ pre) (h2 : (0x25 : UInt8) ∉ post) (h0 : (0 : UInt8) ∉ pre ++ post)
    (hp : ∀ k ∈ c.consoles, (∀ b ∈ k.name, fileOk b = true) ∧ ∀ l, k.log = some l → l.1 = pre ++ bs "%N" ++ post)
    (htm : ∀ m ok tm, DiskEv.openLog m ok tm ∈ es → ∀ x ∈ timeLetters, tm x ≠ []) :
    ∀ n k l, c.consoles[n]? = some k → k.log = some l → onlyLog c pid (pre ++ k.name ++ post) (some (2 * n + 1)) es := by
  have hpw := List.pairwise_iff_getElem.1 (C71_unique cenv text _ c rfl hc).1
  intro n k l hn hl m ok tm x hm hx
  obtain ⟨n', k', l', rfl, g2, g3, g4⟩ := logName_some c pid tm m x hx
  obtain ⟨q1, q2⟩ := hp k' (List.mem_of_getElem? g2)
  have q3 := q2 l' g3
  have q3 : l'.1 = pre ++ 0x25 :: 0x4E :: post := by rw [q3, show bs "%N" = [0x25, 0x4E] by decide]; simp
  obtain ⟨r1, r2⟩ := expand_name k'.fobj pid tm rfl q1 pre post h1 h2
  have hx : x = pre ++ k'.name ++ post := by
    have := openName_expand (htm _ _ _ hm) (l := ⟨k'.fobj, l'.1⟩) (by dsimp only; rw [q3]; exact r2) (by dsimp only; rw [q3]; simp) (by
      dsimp only
      rw [q3, r1]
      simp only [List.mem_append, not_or] at h0 ⊢
      refine ⟨⟨h0.1, fun h => ?_⟩, h0.2⟩
      have := q1 0 h
      revert this; decide) g4
    rw [this]; dsimp only; rw [q3, r1]; rfl
  constructor
  · intro e
    rw [hx] at e
    have e : k'.name = k.name := by
      have := List.append_cancel_right e
      exact List.append_cancel_left this
    have : n = n' := by
      apply Decidable.by_contra
      intro hne
      obtain ⟨l1, e1⟩ := List.getElem?_eq_some_iff.1 hn
      obtain ⟨l2, e2⟩ := List.getElem?_eq_some_iff.1 g2
      rcases Nat.lt_or_gt_of_ne hne with h | h
      · have := (hpw n n' l1 l2 h).1
        rw [e1, e2] at this; exact this e.symm
      · have := (hpw n' n l2 l1 h).1
        rw [e1, e2] at this; exact this e
    rw [this]
  · intro e
    have : n = n' := by have := Option.some.inj e; omega
    subst this
    rw [hn] at g2; cases g2
    exact hx

/-! ### Console output on disk -/

theorem daemonSteps_mem (es : List DiskEv) : ∀ (d : Disk) (s : Step), s ∈ daemonSteps c pid env d es → .step s ∈ es ∨ ∃ m ok, s = .logOpen m ok := by
  induction es with
  | nil => intro d s h; cases h
  | cons e es ih =>
    intro d s h
    rw [daemonSteps, List.mem_append] at h
    rcases h with h | h
    · cases e with
      | step s' =>
        dsimp only [daemonStep] at h
        split at h
        · cases h
        · rw [List.mem_singleton] at h; subst h; exact .inl (List.mem_cons_self ..)
      | openLog m ok tm =>
        dsimp only [daemonStep] at h
        split at h
        · cases h
        · split at h
          · rw [List.mem_singleton] at h; exact .inr ⟨_, _, h⟩
          · cases h
      | _ => cases h
    · split at h
      · rcases ih _ s h with g | g
        · exact .inl (List.mem_cons_of_mem _ g)
        · exact .inr g
      · cases h

/-- C100. Whatever happens, what is added to the log file of a console that is sanitised or stamped is taken, in order, from the output of this console laid out as
configured, with notices of the daemon in between: nothing is invented, nothing of other consoles gets in. -/
theorem C100_nothing_invented (he : LogEnv env) (hf : fs.Ok) {n : Nat} {k : Console} {ln : List UInt8} {o : LogOpt} (hn : c.consoles[n]? = some k) (hl : k.log = some (ln, o))
    (hp : o.sanitize = true ∨ o.timestamp = true) {nm : List UInt8} (hu : oneName fs nm)
    (hr : (Disk.boot c fs held false).run c pid env es = some d) (ha : leftAlone c pid env nm (Disk.boot c fs held false) es = true)
    (ho : onlyLog c pid nm (some (2 * n + 1)) es) (hlen : ∀ i up x wr, .step (.poll i up (some (.data x)) wr) ∈ es → x.length ≤ 8191) :
    ∃ evs new, NotesOk env evs ∧ logOuts evs = saidAll env c.world (2 * n) (daemonSteps c pid env (Disk.boot c fs held false) es) ∧
      fileAt d.fs nm = fileAt fs nm ++ new ∧ new.Sublist (logPage ⟨o.sanitize, o.timestamp⟩ (env.clk (2 * n + 1)) 0 [] evs) := by
  obtain ⟨evs, h1, h2, h3⟩ := C92_nothing_invented (c.consoles.map c.entry) _ he c.entry_console (disk_world es hr) n (c.entry k) ⟨o.sanitize, o.timestamp⟩
    (by rw [List.getElem?_map, hn]; rfl) (by show k.log.map _ = _; rw [hl]; rfl) hp (fun i up x wr hm => by
      rcases daemonSteps_mem es _ _ hm with g | ⟨_, _, g⟩
      · exact hlen i up x wr g
      · cases g)
  exact ⟨evs, _, h1, h2, C100_file hf hn hl hu hr ha ho, (List.sublist_append_left _ _).trans h3⟩

/-- C100. The same for a log that is not processed. -/
theorem C100_nothing_invented_raw (he : LogEnv env) (hf : fs.Ok) {n : Nat} {k : Console} {ln : List UInt8} {o : LogOpt} (hn : c.consoles[n]? = some k) (hl : k.log = some (ln, o))
    (hp : o.sanitize = false ∧ o.timestamp = false) {nm : List UInt8} (hu : oneName fs nm)
    (hr : (Disk.boot c fs held false).run c pid env es = some d) (ha : leftAlone c pid env nm (Disk.boot c fs held false) es = true)
    (ho : onlyLog c pid nm (some (2 * n + 1)) es) (hlen : ∀ i up x wr, .step (.poll i up (some (.data x)) wr) ∈ es → x.length ≤ 8191) :
    ∃ (evs : List LogEv) (new : List UInt8), NotesOk env evs ∧ logOuts evs = saidAll env c.world (2 * n) (daemonSteps c pid env (Disk.boot c fs held false) es) ∧
      fileAt d.fs nm = fileAt fs nm ++ new ∧ new.Sublist (evs.flatMap LogEv.bytes) := by
  obtain ⟨evs, h1, h2, h3⟩ := C92_nothing_invented_raw (c.consoles.map c.entry) _ he c.entry_console (disk_world es hr) n (c.entry k)
    (by rw [List.getElem?_map, hn]; rfl) (by show k.log.map _ = _; rw [hl]; show some (LogOpts.mk o.sanitize o.timestamp) = _; rw [hp.1, hp.2]) (fun i up x wr hm => by
      rcases daemonSteps_mem es _ _ hm with g | ⟨_, _, g⟩
      · exact hlen i up x wr g
      · cases g)
  exact ⟨evs, _, h1, h2, C100_file hf hn hl hu hr ha ho, (List.sublist_append_left _ _).trans h3⟩

/- Full statement of C100: everything a console says is in its log file, or waits for it.  It does not hold, as that of C92. -/

/-- C100 in part: if no write to the log fails and it is never more than full, then what was added to the file, and what waits for it, is the output of the console
laid out as configured, with the notices in between.
Missing: `C92_lost_on_error`, `C92_burst_lost`; two consoles with the same file (`C100_shared_file`). -/
theorem C100_complete_partial (he : LogEnv env) (hf : fs.Ok) {n : Nat} {k : Console} {ln : List UInt8} {o : LogOpt} (hn : c.consoles[n]? = some k) (hl : k.log = some (ln, o))
    (hp : o.sanitize = true ∨ o.timestamp = true) {nm : List UInt8} (hu : oneName fs nm)
    (hr : (Disk.boot c fs held false).run c pid env es = some d) (ha : leftAlone c pid env nm (Disk.boot c fs held false) es = true)
    (ho : onlyLog c pid nm (some (2 * n + 1)) es) (hlen : ∀ i up x wr, .step (.poll i up (some (.data x)) wr) ∈ es → x.length ≤ 8191)
    (hg : (d.w.obj (2 * n + 1)).gen = 0) (hfull : neverFull env c.world (2 * n + 1) (daemonSteps c pid env (Disk.boot c fs held false) es) = true) :
    ∃ evs, NotesOk env evs ∧ logOuts evs = saidAll env c.world (2 * n) (daemonSteps c pid env (Disk.boot c fs held false) es) ∧
      fileAt d.fs nm ++ (d.w.obj (2 * n + 1)).pend = fileAt fs nm ++ logPage ⟨o.sanitize, o.timestamp⟩ (env.clk (2 * n + 1)) 0 [] evs := by
  obtain ⟨evs, h1, h2, h3⟩ := C92_log_complete_partial (c.consoles.map c.entry) _ he c.entry_console (disk_world es hr) n (c.entry k) ⟨o.sanitize, o.timestamp⟩
    (by rw [List.getElem?_map, hn]; rfl) (by show k.log.map _ = _; rw [hl]; rfl) hp (fun i up x wr hm => by
      rcases daemonSteps_mem es _ _ hm with g | ⟨_, _, g⟩
      · exact hlen i up x wr g
      · cases g) hg hfull
  exact ⟨evs, h1, h2, by rw [C100_file hf hn hl hu hr ha ho, List.append_assoc, h3]⟩

/-- C100 in part: the same for a log that is not processed.
Missing: as above. -/
theorem C100_complete_raw_partial (he : LogEnv env) (hf : fs.Ok) {n : Nat} {k : Console} {ln : List UInt8} {o : LogOpt} (hn : c.consoles[n]? = some k) (hl : k.log = some (ln, o))
    (hp : o.sanitize = false ∧ o.timestamp = false) {nm : List UInt8} (hu : oneName fs nm)
    (hr : (Disk.boot c fs held false).run c pid env es = some d) (ha : leftAlone c pid env nm (Disk.boot c fs held false) es = true)
    (ho : onlyLog c pid nm (some (2 * n + 1)) es) (hlen : ∀ i up x wr, .step (.poll i up (some (.data x)) wr) ∈ es → x.length ≤ 8191)
    (hg : (d.w.obj (2 * n + 1)).gen = 0) (hfull : neverFull env c.world (2 * n + 1) (daemonSteps c pid env (Disk.boot c fs held false) es) = true) :
    ∃ evs : List LogEv, NotesOk env evs ∧ logOuts evs = saidAll env c.world (2 * n) (daemonSteps c pid env (Disk.boot c fs held false) es) ∧
      fileAt d.fs nm ++ (d.w.obj (2 * n + 1)).pend = fileAt fs nm ++ evs.flatMap LogEv.bytes := by
  obtain ⟨evs, h1, h2, h3⟩ := C92_log_complete_raw_partial (c.consoles.map c.entry) _ he c.entry_console (disk_world es hr) n (c.entry k)
    (by rw [List.getElem?_map, hn]; rfl) (by show k.log.map _ = _; rw [hl]; show some (LogOpts.mk o.sanitize o.timestamp) = _; rw [hp.1, hp.2]) (fun i up x wr hm => by
      rcases daemonSteps_mem es _ _ hm with g | ⟨_, _, g⟩
      · exact hlen i up x wr g
      · cases g) hg hfull
  exact ⟨evs, h1, h2, by rw [C100_file hf hn hl hu hr ha ho, List.append_assoc, h3]⟩

/-- C100. Whatever a console says and whatever happens, all that is added to its sanitised log file is printable, CR or LF, provided the notices and time stamps are. -/
theorem C100_sanitized (he : LogEnv env) (hf : fs.Ok) {n : Nat} {k : Console} {ln : List UInt8} {o : LogOpt} (hn : c.consoles[n]? = some k) (hl : k.log = some (ln, o))
    (hp : o.sanitize = true) {nm : List UInt8} (hu : oneName fs nm)
    (hr : (Disk.boot c fs held false).run c pid env es = some d) (ha : leftAlone c pid env nm (Disk.boot c fs held false) es = true)
    (ho : onlyLog c pid nm (some (2 * n + 1)) es) (hlen : ∀ i up x wr, .step (.poll i up (some (.data x)) wr) ∈ es → x.length ≤ 8191)
    (htxt : ∀ m k, ∀ b ∈ env.txt m k, isPrint b = true ∨ b = 0x0D ∨ b = 0x0A) (hclk : ∀ l k, ∀ b ∈ env.clk l k, isPrint b = true) :
    ∃ new, fileAt d.fs nm = fileAt fs nm ++ new ∧ ∀ b ∈ new, isPrint b = true ∨ b = 0x0D ∨ b = 0x0A := by
  refine ⟨_, C100_file hf hn hl hu hr ha ho, fun b hb => ?_⟩
  refine C92_sanitized (c.consoles.map c.entry) _ he c.entry_console (disk_world es hr) n (c.entry k) o.timestamp
    (by rw [List.getElem?_map, hn]; rfl) (by show k.log.map _ = _; rw [hl]; show some (LogOpts.mk o.sanitize o.timestamp) = _; rw [hp]) (fun i up x wr hm => ?_) htxt hclk b
    (List.mem_append_left _ hb)
  rcases daemonSteps_mem es _ _ hm with g | ⟨_, _, g⟩
  · exact hlen i up x wr g
  · cases g

/-! ### Examples: the configuration of `telText`, with `GLOBAL log="%N.log"` -/

/-- Files at the start: the log of console `p`, and another file. -/
def Spec.diskDir : LDir where
  ino := fun x => if x = bs "/tmp/p.log" then some 0 else if x = bs "/tmp/x" then some 1 else none
  data := fun i => if i = 0 then bs "old\n" else if i = 1 then bs "X\n" else []
  next := 2

theorem diskDir_ok : diskDir.Ok ∧ ∀ nm, nm ≠ bs "/tmp/x" → oneName diskDir nm := by
  refine ⟨⟨fun nm i h => ?_, fun i h => ?_⟩, fun nm hx x i h1 h2 => ?_⟩
  · show i < 2
    unfold diskDir at h
    dsimp only at h
    split at h
    · cases h; decide
    · split at h
      · cases h; decide
      · cases h
  · have h : 2 ≤ i := h
    show (if i = 0 then _ else _) = []
    rw [if_neg (by omega), if_neg (by omega)]
  · unfold diskDir at h1 h2
    dsimp only at h1 h2
    split at h1
    · rename_i e
      cases h1
      split at h2
      · rename_i e2; rw [e, e2]
      · split at h2 <;> cases h2
    · cases h1

/-- Both logs are opened, both consoles come up and say something; another process writes to its file and renames the log of console `q`; SIGHUP; the logs are written. -/
def Spec.diskEvs : List DiskEv := [.openLog 1 true tmDemo, .openLog 3 true tmDemo, .step (.connUp 0), .step (.connUp 2), .step (.poll 0 true (some (.data [0x61, 0x1B])) none),
  .step (.poll 1 true none (some (.accept 4))), .other 1 (bs "Y\n"), .rename (bs "/tmp/q.log") (bs "/tmp/q.old"), .step (.poll 2 true (some (.data [0x62])) none),
  .step (.poll 3 true none (some (.accept 30))), .openLog 1 true tmDemo, .openLog 3 true tmDemo, .step (.poll 1 true none (some (.accept 30))),
  .step (.poll 3 true none (some (.accept 30)))]

/-- What is in the files then; the log file of console `p` was left alone. -/
theorem disk_demo : ((Disk.boot telConf diskDir (fun _ => false) false).run telConf 7 Demo.env diskEvs).map (fun d =>
      (fileAt d.fs (bs "/tmp/p.log") == bs "old\nnna^[n") && (fileAt d.fs (bs "/tmp/q.log") == bs "n") && (fileAt d.fs (bs "/tmp/q.old") == bs "nnb") &&
      (fileAt d.fs (bs "/tmp/x") == bs "X\nY\n") && ((d.w.obj 1).gen == 0) && ((d.w.obj 1).pend == [])) = some true ∧
    leftAlone telConf 7 Demo.env (bs "/tmp/p.log") (Disk.boot telConf diskDir (fun _ => false) false) diskEvs = true ∧
    leftAlone telConf 7 Demo.env (bs "/tmp/z") (Disk.boot telConf diskDir (fun _ => false) true) diskEvs = true ∧
    neverFull Demo.env telConf.world 1 (daemonSteps telConf 7 Demo.env (Disk.boot telConf diskDir (fun _ => false) false) diskEvs) = true ∧
    saidAll Demo.env telConf.world 0 (daemonSteps telConf 7 Demo.env (Disk.boot telConf diskDir (fun _ => false) false) diskEvs) = [0x61, 0x1B] := by decide +kernel

/-- With `-z`. -/
example : ((Disk.boot telConf diskDir (fun _ => false) true).run telConf 7 Demo.env diskEvs).map (fun d =>
      (fileAt d.fs (bs "/tmp/p.log") == bs "nna^[n") && (fileAt d.fs (bs "/tmp/x") == bs "X\nY\n")) = some true ∧
    leftAlone telConf 7 Demo.env (bs "/tmp/p.log") (Disk.boot telConf diskDir (fun _ => false) true) diskEvs = true := by decide +kernel

theorem tel_logs : telConf.consoles.all (fun k => k.name.all fileOk && (k.log.map (·.1) == some (bs "/tmp/%N.log"))) = true ∧
    telConf.consoles.map (·.name) = [bs "p", bs "q"] := by decide +kernel

/-- The hypotheses of `C100_names_global` hold for this configuration, so that those of `C100_file` and what follows from it hold for console `p`, whose log is sanitised. -/
example : (∃ k l, telConf.consoles[0]? = some k ∧ k.log = some l ∧ l.2.sanitize = true) ∧ onlyLog telConf 7 (bs "/tmp/p.log") (some 1) diskEvs ∧
    onlyLog telConf 7 (bs "/tmp/q.log") (some 3) diskEvs ∧ ∀ i up x wr, .step (.poll i up (some (.data x)) wr) ∈ diskEvs → x.length ≤ 8191 := by
  have hk : ∀ k ∈ telConf.consoles, (∀ b ∈ k.name, fileOk b = true) ∧ ∀ l, k.log = some l → l.1 = bs "/tmp/" ++ bs "%N" ++ bs ".log" := by
    intro k hk
    have := List.all_eq_true.1 tel_logs.1 k hk
    rw [Bool.and_eq_true, List.all_eq_true, beq_iff_eq] at this
    refine ⟨this.1, fun l hl => ?_⟩
    have h2 := this.2
    rw [hl] at h2
    have h3 : l.1 = _ := Option.some.inj h2
    rw [h3]; decide
  have htm : ∀ m ok tm, DiskEv.openLog m ok tm ∈ diskEvs → ∀ x ∈ timeLetters, tm x ≠ [] := by
    intro m ok tm h
    have : tm = tmDemo := by
      simp only [diskEvs, List.mem_cons, DiskEv.openLog.injEq, List.not_mem_nil, or_false, reduceCtorEq, false_or] at h
      rcases h with ⟨_, _, h⟩ | ⟨_, _, h⟩ | ⟨_, _, h⟩ | ⟨_, _, h⟩ <;> exact h
    rw [this]; exact tmDemo_ne
  have G := C100_names_global (pid := 7) (es := diskEvs) (c := telConf) (cenv := envDemo) tel_read.1 (pre := bs "/tmp/") (post := bs ".log") (by decide) (by decide) (by decide) hk htm
  have nm : ∀ (n : Nat) (k : Console), telConf.consoles[n]? = some k → (telConf.consoles.map (·.name))[n]? = some k.name := by
    intro n k h; rw [List.getElem?_map, h]; rfl
  obtain ⟨k0, n0, o0, a1, a2, a3, a4, a5⟩ := tel_console 0 (by decide)
  obtain ⟨k1, n1, o1, b1, b2, b3, b4, b5⟩ := tel_console 1 (by decide)
  have e0 : k0.name = bs "p" := by have := nm 0 k0 a1; rw [tel_logs.2] at this; exact (Option.some.inj this).symm
  have e1 : k1.name = bs "q" := by have := nm 1 k1 b1; rw [tel_logs.2] at this; exact (Option.some.inj this).symm
  refine ⟨⟨k0, _, a1, a3, a5⟩, ?_, ?_, ?_⟩
  · have := G 0 k0 _ a1 a3
    rw [e0] at this; exact this
  · have := G 1 k1 _ b1 b3
    rw [e1] at this; exact this
  · intro i up x wr hm
    simp only [diskEvs, List.mem_cons, DiskEv.step.injEq, Step.poll.injEq, Option.some.injEq, ReadRes.data.injEq, List.not_mem_nil, or_false, reduceCtorEq, false_or, and_false, false_and] at hm
    rcases hm with ⟨_, _, rfl, _⟩ | ⟨_, _, rfl, _⟩ <;> decide

/-- The hypothesis of `C100_names_plain`. -/
example : (readDemo "SERVER logdir=\"/tmp\"\nCONSOLE name=\"p\" dev=\"host:7001\" log=\"p.log\"\nCONSOLE name=\"q\" dev=\"host:7002\" log=\"q.log\"\n").map (fun c =>
    c.consoles.all (fun k => match k.log with | some l => !l.1.contains 0x25 | none => false) && (c.consoles.length == 2)) = some true := by decide +kernel

/-- C100, what fails: two consoles, `a b` and `a_b`, that share the log file `a_b.log` given by `GLOBAL log="%N.log"`: no error is reported, and what they say is in one file. -/
theorem C100_shared_file : (readDemo "SERVER logdir=\"/tmp\"\nGLOBAL log=\"%N.log\"\nCONSOLE name=\"a b\" dev=\"host:7001\" logopts=\"nosanitize\"\nCONSOLE name=\"a_b\" dev=\"host:7002\" logopts=\"nosanitize\"\n").map
    (fun c => (c.consoles.map (·.name) == [bs "a b", bs "a_b"]) && (c.errs == []) && (((Disk.boot c diskDir (fun _ => false) false).run c 7 Demo.env diskEvs).map fun d =>
      (fileAt d.fs (bs "/tmp/a_b.log") == bs "nna" ++ [0x1B] ++ bs "nnbnn") && (sentTo 1 d.w.fx == bs "nna" ++ [0x1B] ++ bs "n") && (sentTo 3 d.w.fx == bs "nnbn")) == some true) = some true := by
  decide +kernel

end Conman
