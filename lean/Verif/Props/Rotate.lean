import Verif.Lemma.Rotate
import Verif.Props.Disk

/-
C103: rotation of logs.  `logrotate` renames a log file and sends SIGHUP, upon which the daemon opens the log again (man/conmand.8.in:65-68, etc/conman.logrotate).
`parts … = some fam`: until now, all that others did to the log file and its parts `fam` (oldest first) was to give them names that no file had.
-/
namespace Conman
open Spec

variable {c : SConf} {pid : Int} {env : Env} {fs : LDir} {held : Nat → Bool} {es : List DiskEv} {d : Disk}

/-- C103. However often the log file of a console is renamed, its parts renamed further, and the log opened again or not: what the parts hold, oldest first, and then the
log file, is what the file held at the start followed by exactly the bytes written to this log; nothing is lost, doubled or exchanged, also not what was written between the
renaming and the opening. -/
theorem C103_parts (hf : fs.Ok) {n : Nat} {k : Console} {l : List UInt8 × LogOpt} (hn : c.consoles[n]? = some k) (hl : k.log = some l) {nm : List UInt8} (hu : oneName fs nm)
    (hr : (Disk.boot c fs held false).run c pid env es = some d) {fam : List (List UInt8)} (hp : parts c pid env nm (Disk.boot c fs held false) [] es = some fam)
    (ho : onlyLog c pid nm (some (2 * n + 1)) es) : fam.flatMap (fileAt d.fs) ++ fileAt d.fs nm = fileAt fs nm ++ sentTo (2 * n + 1) d.w.fx := by
  have h0 : Reachable env c.world := ⟨_, [], c.entry_console, rfl⟩
  have := (rot_run es (rot_boot c fs held nm (2 * n + 1) hf hu h0.finv (world_log c n k l hn hl)) hr hp ho).data
  rw [List.flatMap_append, List.flatMap_singleton] at this
  exact this

/- Full statement of C103: everything a console says is in the parts of its log file, in order, or waits for it.  It does not hold, as that of C92. -/

/-- C103 in part: if no write to the log fails and it is never more than full, then what the parts and the log file hold together, with what waits, is what the file held at the
start followed by the output of the console laid out as configured, with the notices in between.
Missing: `C92_lost_on_error`, `C92_burst_lost`; parts that are removed (`C103_compressed`). -/
theorem C103_complete_partial (he : LogEnv env) (hf : fs.Ok) {n : Nat} {k : Console} {ln : List UInt8} {o : LogOpt} (hn : c.consoles[n]? = some k) (hl : k.log = some (ln, o))
    (hs : o.sanitize = true ∨ o.timestamp = true) {nm : List UInt8} (hu : oneName fs nm)
    (hr : (Disk.boot c fs held false).run c pid env es = some d) {fam : List (List UInt8)} (hp : parts c pid env nm (Disk.boot c fs held false) [] es = some fam)
    (ho : onlyLog c pid nm (some (2 * n + 1)) es) (hlen : ∀ i up x wr, .step (.poll i up (some (.data x)) wr) ∈ es → x.length ≤ 8191)
    (hg : (d.w.obj (2 * n + 1)).gen = 0) (hfull : neverFull env c.world (2 * n + 1) (daemonSteps c pid env (Disk.boot c fs held false) es) = true) :
    ∃ evs, NotesOk env evs ∧ logOuts evs = saidAll env c.world (2 * n) (daemonSteps c pid env (Disk.boot c fs held false) es) ∧
      fam.flatMap (fileAt d.fs) ++ fileAt d.fs nm ++ (d.w.obj (2 * n + 1)).pend = fileAt fs nm ++ logPage ⟨o.sanitize, o.timestamp⟩ (env.clk (2 * n + 1)) 0 [] evs := by
  obtain ⟨evs, h1, h2, h3⟩ := C92_log_complete_partial (c.consoles.map c.entry) _ he c.entry_console (disk_world es hr) n (c.entry k) ⟨o.sanitize, o.timestamp⟩
    (by rw [List.getElem?_map, hn]; rfl) (by show k.log.map _ = _; rw [hl]; rfl) hs (fun i up x wr hm => by
      rcases daemonSteps_mem es _ _ hm with g | ⟨_, _, g⟩
      · exact hlen i up x wr g
      · cases g) hg hfull
  exact ⟨evs, h1, h2, by rw [C103_parts hf hn hl hu hr hp ho, List.append_assoc, h3]⟩

/-- C103 in part: the same for a log that is not processed.
Missing: as above. -/
theorem C103_complete_raw_partial (he : LogEnv env) (hf : fs.Ok) {n : Nat} {k : Console} {ln : List UInt8} {o : LogOpt} (hn : c.consoles[n]? = some k) (hl : k.log = some (ln, o))
    (hs : o.sanitize = false ∧ o.timestamp = false) {nm : List UInt8} (hu : oneName fs nm)
    (hr : (Disk.boot c fs held false).run c pid env es = some d) {fam : List (List UInt8)} (hp : parts c pid env nm (Disk.boot c fs held false) [] es = some fam)
    (ho : onlyLog c pid nm (some (2 * n + 1)) es) (hlen : ∀ i up x wr, .step (.poll i up (some (.data x)) wr) ∈ es → x.length ≤ 8191)
    (hg : (d.w.obj (2 * n + 1)).gen = 0) (hfull : neverFull env c.world (2 * n + 1) (daemonSteps c pid env (Disk.boot c fs held false) es) = true) :
    ∃ evs : List LogEv, NotesOk env evs ∧ logOuts evs = saidAll env c.world (2 * n) (daemonSteps c pid env (Disk.boot c fs held false) es) ∧
      fam.flatMap (fileAt d.fs) ++ fileAt d.fs nm ++ (d.w.obj (2 * n + 1)).pend = fileAt fs nm ++ evs.flatMap LogEv.bytes := by
  obtain ⟨evs, h1, h2, h3⟩ := C92_log_complete_raw_partial (c.consoles.map c.entry) _ he c.entry_console (disk_world es hr) n (c.entry k)
    (by rw [List.getElem?_map, hn]; rfl) (by show k.log.map _ = _; rw [hl]; show some (LogOpts.mk o.sanitize o.timestamp) = _; rw [hs.1, hs.2]) (fun i up x wr hm => by
      rcases daemonSteps_mem es _ _ hm with g | ⟨_, _, g⟩
      · exact hlen i up x wr g
      · cases g) hg hfull
  exact ⟨evs, h1, h2, by rw [C103_parts hf hn hl hu hr hp ho, List.append_assoc, h3]⟩

theorem diskRun_append (es es' : List DiskEv) : ∀ (d : Disk), d.run c pid env (es ++ es') = (d.run c pid env es).bind fun d => d.run c pid env es' := by
  induction es with
  | nil => intro d; rfl
  | cons e es ih =>
    intro d
    simp only [List.cons_append, Disk.run]
    cases d.step c pid env e with
    | none => rfl
    | some d => exact ih d

/-- C103. From the time the log is opened again, also if this fails, the parts do not change any more, until others do something to them. -/
theorem C103_done (hf : fs.Ok) {n : Nat} {k : Console} {l : List UInt8 × LogOpt} (hn : c.consoles[n]? = some k) (hl : k.log = some l) {nm : List UInt8} (hu : oneName fs nm)
    {ok : Bool} {tm : UInt8 → List UInt8} {es' : List DiskEv} {d' : Disk}
    (hr : (Disk.boot c fs held false).run c pid env (es ++ [.openLog (2 * n + 1) ok tm]) = some d) {fam : List (List UInt8)}
    (hp : parts c pid env nm (Disk.boot c fs held false) [] (es ++ [.openLog (2 * n + 1) ok tm]) = some fam)
    (ho : onlyLog c pid nm (some (2 * n + 1)) (es ++ [.openLog (2 * n + 1) ok tm])) (hr' : d.run c pid env es' = some d')
    {y : List UInt8} (hy : y ∈ fam) (ha : leftAlone c pid env y d es' = true) (ho' : onlyLog c pid y none es') : fileAt d'.fs y = fileAt d.fs y := by
  have h0 : Reachable env c.world := ⟨_, [], c.entry_console, rfl⟩
  have B := rot_boot c fs held nm (2 * n + 1) hf hu h0.finv (world_log c n k l hn hl)
  have I := rot_run _ B hr hp ho
  have hyn : y ≠ nm := fun e => (List.nodup_append.1 I.nodup).2.2 y hy nm (by simp) e
  -- the log has no other file open than the one of its name
  have cur : ∀ j, d.file (2 * n + 1) = some j → d.fs.ino nm = some j := by
    intro j hj
    rw [diskRun_append, Option.bind_eq_some_iff] at hr
    obtain ⟨d1, h1, h2⟩ := hr
    simp only [Disk.run, Option.bind_eq_some_iff] at h2
    obtain ⟨d2, h2, h3⟩ := h2
    cases h3
    simp only [Disk.step] at h2
    obtain ⟨f1, p1, p2⟩ : ∃ f1, parts c pid env nm (Disk.boot c fs held false) [] es = some f1 ∧ True := by
      cases e : parts c pid env nm (Disk.boot c fs held false) [] es with
      | some f => exact ⟨f, rfl, trivial⟩
      | none =>
        exfalso
        have : ∀ (es es' : List DiskEv) (d : Disk) (fam : List (List UInt8)), parts c pid env nm d fam es = none → parts c pid env nm d fam (es ++ es') = none := by
          intro es
          induction es with
          | nil => intro es' d fam h; cases h
          | cons e es ih =>
            intro es' d fam h
            simp only [List.cons_append, parts] at h ⊢
            cases g : partsStep c pid nm d fam e with
            | none => rfl
            | some f =>
              rw [g] at h
              simp only [Option.bind_some] at h ⊢
              cases g2 : d.step c pid env e with
              | none => rw [g2] at h; cases h
              | some d2 => rw [g2] at h; exact ih es' d2 f h
        rw [this _ _ _ _ e] at hp; cases hp
    have I1 := rot_run _ B h1 p1 fun m ok tm x hm => ho m ok tm x (List.mem_append_left _ hm)
    rw [if_neg (by rw [I1.isLog.1]; simp), Option.bind_eq_some_iff] at h2
    obtain ⟨o, ho1, h2⟩ := h2
    rw [Option.map_eq_some_iff] at h2
    obtain ⟨w', hw, rfl⟩ := h2
    have hj : o.file = some j := by
      unfold Disk.take at hj
      dsimp only at hj
      split at hj
      · rw [if_pos rfl] at hj; exact hj
      · cases hj
    obtain ⟨f1, _⟩ := logOpen_world _ o.ok I1.isLog.1 hw
    have hfs : ∀ e : Disk, e.w = d1.w → (e.take w').fs = e.fs := by
      intro e he
      unfold Disk.take
      dsimp only
      rw [he, f1, List.drop_length]; rfl
    rw [hfs (Disk.mk d1.w o.fs d1.held (fun i => if i = 2 * n + 1 then o.file else d1.file i) fun i => if i = 2 * n + 1 then o.trunc else d1.trunc i) rfl]
    dsimp only
    rcases open_cases ho1 with ⟨_, q, _⟩ | ⟨x, q1, q2, q3, q4⟩
    · rw [q] at hj; cases hj
    · rcases q4 with ⟨_, q⟩ | ⟨_, q⟩
      · rw [q] at hj; cases hj
      · rw [q] at hj; cases hj
        have : x = nm := (ho _ ok tm x (by simp) q1).2 rfl
        subst this
        rw [q2]; exact (open_ino d1.fs x _ I1.ok.names).1
  have J : DiskInv y none (fileAt d.fs y) false d := by
    have hm : y ∈ fam ++ [nm] := List.mem_append_left _ hy
    refine ⟨I.fin, I.ok, I.files, I.uniq y hm, fun l h => (nomatch h), fun l h => (nomatch h), fun l h => (nomatch h), fun m _ j hj => ?_, fun l h => (nomatch h), fun l h => (nomatch h),
      fileAt d.fs y, .inl rfl, (List.append_nil _).symm⟩
    by_cases e : m = 2 * n + 1
    · subst e
      intro g
      exact hyn (I.uniq nm (by simp) y j (cur j hj) g)
    · exact I.others m e j hj y hm
  obtain ⟨b, hb, e⟩ := (disk_run es' J hr' ha ho').data
  rcases hb with rfl | ⟨_, hb, _⟩
  · rw [e]; exact List.append_nil _
  · cases hb

/-! ### Examples -/

/-- Two rotations of the log of console `p` in the manner of `logrotate`: `p.log` to `p.1`, then `p.1` to `p.2` and `p.log` to `p.1`. -/
def Spec.rotEvs : List DiskEv := [.openLog 1 true tmDemo, .openLog 3 true tmDemo, .step (.connUp 0), .step (.poll 0 true (some (.data [0x61])) none),
  .step (.poll 1 true none (some (.accept 30))), .rename (bs "/tmp/p.log") (bs "/tmp/p.1"), .step (.poll 0 true (some (.data [0x62])) none), .step (.poll 1 true none (some (.accept 30))),
  .openLog 1 true tmDemo, .openLog 3 true tmDemo, .step (.poll 0 true (some (.data [0x63])) none), .step (.poll 1 true none (some (.accept 30))),
  .rename (bs "/tmp/p.1") (bs "/tmp/p.2"), .rename (bs "/tmp/p.log") (bs "/tmp/p.1"), .step (.poll 0 true (some (.data [0x64])) none), .openLog 1 true tmDemo, .openLog 3 true tmDemo,
  .step (.poll 1 true none (some (.accept 30)))]

/-- What the parts hold then: `b`, said after the renaming, is in the old file, and `d`, which had not been written when the log was opened again, in the new one. -/
theorem rot_demo : ((Disk.boot telConf diskDir (fun _ => false) false).run telConf 7 Demo.env rotEvs).map (fun d =>
      (fileAt d.fs (bs "/tmp/p.2") == bs "old\nnnab") && (fileAt d.fs (bs "/tmp/p.1") == bs "nc") && (fileAt d.fs (bs "/tmp/p.log") == bs "dn") &&
      ((d.w.obj 1).gen == 0) && ((d.w.obj 1).pend == []) && (sentTo 1 d.w.fx == bs "nnabncdn")) = some true ∧
    parts telConf 7 Demo.env (bs "/tmp/p.log") (Disk.boot telConf diskDir (fun _ => false) false) [] rotEvs = some [bs "/tmp/p.2", bs "/tmp/p.1"] ∧
    neverFull Demo.env telConf.world 1 (daemonSteps telConf 7 Demo.env (Disk.boot telConf diskDir (fun _ => false) false) rotEvs) = true ∧
    saidAll Demo.env telConf.world 0 (daemonSteps telConf 7 Demo.env (Disk.boot telConf diskDir (fun _ => false) false) rotEvs) = bs "abcd" := by decide +kernel

theorem tel_only (es : List DiskEv) (h : ∀ m ok tm, DiskEv.openLog m ok tm ∈ es → tm = tmDemo) : (∃ k l, telConf.consoles[0]? = some k ∧ k.log = some l ∧ l.2.sanitize = true) ∧
    onlyLog telConf 7 (bs "/tmp/p.log") (some 1) es := by
  have hk : ∀ k ∈ telConf.consoles, (∀ b ∈ k.name, fileOk b = true) ∧ ∀ l, k.log = some l → l.1 = bs "/tmp/" ++ bs "%N" ++ bs ".log" := by
    intro k hk
    have := List.all_eq_true.1 tel_logs.1 k hk
    rw [Bool.and_eq_true, List.all_eq_true, beq_iff_eq] at this
    refine ⟨this.1, fun l hl => ?_⟩
    have h2 := this.2
    rw [hl] at h2
    have h3 : l.1 = _ := Option.some.inj h2
    rw [h3]; decide
  have htm : ∀ m ok tm, DiskEv.openLog m ok tm ∈ es → ∀ x ∈ timeLetters, tm x ≠ [] := by
    intro m ok tm hm
    rw [h m ok tm hm]; exact tmDemo_ne
  have G := C100_names_global (pid := 7) (es := es) (c := telConf) (cenv := envDemo) tel_read.1 (pre := bs "/tmp/") (post := bs ".log") (by decide) (by decide) (by decide) hk htm
  obtain ⟨k0, n0, o0, a1, a2, a3, a4, a5⟩ := tel_console 0 (by decide)
  have e0 : k0.name = bs "p" := by
    have : (telConf.consoles.map (·.name))[0]? = some k0.name := by rw [List.getElem?_map, a1]; rfl
    rw [tel_logs.2] at this; exact (Option.some.inj this).symm
  refine ⟨⟨k0, _, a1, a3, a5⟩, ?_⟩
  have := G 0 k0 _ a1 a3
  rw [e0] at this; exact this

/-- The other hypotheses of `C103_parts` and `C103_complete_partial`. -/
example : (∃ k l, telConf.consoles[0]? = some k ∧ k.log = some l ∧ l.2.sanitize = true) ∧ onlyLog telConf 7 (bs "/tmp/p.log") (some 1) rotEvs ∧
    diskDir.Ok ∧ oneName diskDir (bs "/tmp/p.log") ∧ ∀ i up x wr, .step (.poll i up (some (.data x)) wr) ∈ rotEvs → x.length ≤ 8191 := by
  obtain ⟨h1, h2⟩ := tel_only rotEvs (fun m ok tm h => by
    simp only [rotEvs, List.mem_cons, DiskEv.openLog.injEq, List.not_mem_nil, or_false, reduceCtorEq, false_or] at h
    rcases h with ⟨_, _, h⟩ | ⟨_, _, h⟩ | ⟨_, _, h⟩ | ⟨_, _, h⟩ | ⟨_, _, h⟩ | ⟨_, _, h⟩ <;> exact h)
  refine ⟨h1, h2, diskDir_ok.1, diskDir_ok.2 _ (by decide), ?_⟩
  intro i up x wr hm
  simp only [rotEvs, List.mem_cons, DiskEv.step.injEq, Step.poll.injEq, Option.some.injEq, ReadRes.data.injEq, List.not_mem_nil, or_false, reduceCtorEq, false_or, and_false, false_and] at hm
  rcases hm with ⟨_, _, rfl, _⟩ | ⟨_, _, rfl, _⟩ | ⟨_, _, rfl, _⟩ | ⟨_, _, rfl, _⟩ <;> decide

/-- The hypotheses of `C103_done`: after the first rotation the log is opened again; `p.1` is left alone while the daemon goes on. -/
example : parts telConf 7 Demo.env (bs "/tmp/p.log") (Disk.boot telConf diskDir (fun _ => false) false) [] (rotEvs.take 8 ++ [.openLog 1 true tmDemo]) = some [bs "/tmp/p.1"] ∧
    ((Disk.boot telConf diskDir (fun _ => false) false).run telConf 7 Demo.env (rotEvs.take 8 ++ [.openLog 1 true tmDemo])).map (fun d =>
      leftAlone telConf 7 Demo.env (bs "/tmp/p.1") d ((rotEvs.drop 9).take 3) && (((d.run telConf 7 Demo.env ((rotEvs.drop 9).take 3)).map fun d' =>
        (fileAt d'.fs (bs "/tmp/p.1") == bs "old\nnnab") && (fileAt d'.fs (bs "/tmp/p.log") == bs "nc")) == some true)) = some true := by decide +kernel

/-! ### What fails -/

/-- The file is renamed and SIGHUP sent, but the daemon has not come to it yet. -/
def Spec.gzBefore : List DiskEv := rotEvs.take 6

/-- The daemon goes on with its round; the old file, once read, is removed; then the daemon opens the log again. -/
def Spec.gzAfter : List DiskEv := [.step (.poll 0 true (some (.data [0x62])) none), .step (.poll 1 true none (some (.accept 30))), .remove (bs "/tmp/p.1"),
  .openLog 1 true tmDemo, .openLog 3 true tmDemo, .step (.poll 1 true none (some (.accept 30)))]

/-- C103, what fails: with `compress` and `nodelaycompress`, as in etc/conman.logrotate, the renamed file is read and removed right after SIGHUP was sent.  The daemon, which takes
notice of a signal once in a round (src/server.c:771-779), can have written to the file after it was read: `b` is neither in the copy nor in the new log file, and does not wait. -/
theorem C103_compressed : ((Disk.boot telConf diskDir (fun _ => false) false).run telConf 7 Demo.env gzBefore).bind (fun d => (d.run telConf 7 Demo.env gzAfter).map fun d' =>
    (fileAt d.fs (bs "/tmp/p.1") == bs "old\nnna") && (fileAt d'.fs (bs "/tmp/p.log") == bs "n") && ((d'.w.obj 1).pend == []) && ((d'.w.obj 1).gen == 0) &&
    (sentTo 1 d'.w.fx == bs "nnabn") && (saidAll Demo.env telConf.world 0 (daemonSteps telConf 7 Demo.env (Disk.boot telConf diskDir (fun _ => false) false) (gzBefore ++ gzAfter)) == bs "ab"))
    = some true := by decide +kernel

end Conman
