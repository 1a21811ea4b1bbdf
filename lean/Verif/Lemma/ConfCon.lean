import Verif.Spec.ConfCon
import Verif.Lemma.ConfSet
import Verif.Lemma.ConfFrame
import Verif.Props.Format
import Verif.Props.Opts
import Verif.Props.Ipmi
import Verif.Props.Device
import Verif.Props.CStr

/-
Lemmas on CONSOLE and GLOBAL directives.
-/
namespace Conman

open Spec

/-- Where the parser is in a line `l` ended by `e`. -/
inductive InLine (e : Cf) (l : List Cf) : Ps → Prop
  | at_ (a : List Cf) (t : Cf) (b : List Cf) (h : l = a ++ t :: b) : InLine e l ⟨t, b⟩
  | atEnd : InLine e l ⟨e, []⟩

theorem serForm_nonblank (f : SerForm) : ¬ Blank f.text := by
  have key : ∀ (n : Nat) (r : List UInt8), ¬ Blank (dec n ++ r) := by
    intro n r hb
    obtain ⟨h1, h2, _⟩ := dec_spec n
    cases hd : dec n with
    | nil => exact h1 hd
    | cons x xs =>
      have hx : digit x := h2 x (by rw [hd]; exact List.mem_cons_self)
      have := hb x (by rw [hd]; simp)
      unfold blankChar at this
      unfold digit at hx
      rcases this with rfl | ⟨_, g⟩
      · exact absurd hx (by decide)
      · exact absurd (Nat.le_trans (UInt8.le_iff_toNat_le.1 hx.1) (UInt8.le_iff_toNat_le.1 g)) (by decide)
  cases f with
  | bps b => have := key b []; rw [List.append_nil] at this; exact this
  | bits b d => exact key b _
  | parity b d p => exact key b _
  | full b d p s => exact key b _

/-! ### The tokens of a CONSOLE directive -/

theorem conClause_val (eof k e v : Cf) (r : List Cf) (con : ConStrs) (f : Cf → Option ConStrs) (he : e.kind = .eq) :
    conClause eof ⟨k, e :: v :: r⟩ con f = match f v with | none => ⟨⟨v, r⟩, con, true⟩ | some con => ⟨⟨v, r⟩, con, false⟩ := by
  unfold conClause
  rw [if_neg (by simp [Ps.next, he])]
  rfl

theorem optText_some {v : Cf} {s : List UInt8} (h : Text v s) (hb : ¬ Blank s) : optText v = some s := by
  unfold optText; rw [if_neg (str_nonblank h hb), h.2]

theorem optText_none {v : Cf} (h : v.kind ≠ .str ∨ Blank v.text) : optText v = none := by
  unfold optText; rw [if_pos (str_bad h)]

theorem anyText_some {v : Cf} {s : List UInt8} (h : Text v s) : anyText v = some s := by
  unfold anyText; rw [if_neg (str_pos h), h.2]

theorem conLoop_writes (env : CEnv) (eof : Cf) (dir : List UInt8) : ∀ (l : List Cf) (con con' : ConStrs), ConWrites env.withIpmi dir l con con' →
    ∀ (t : Cf) (r : List Cf) (n : Nat), (l ++ r).length < n →
      ∃ (t' : Cf) (m : Nat), r.length < m ∧ conLoop env eof dir n ⟨t, l ++ r⟩ con = conLoop env eof dir m ⟨t', r⟩ con' := by
  intro l con con' hw
  have step : ∀ (k e v : Cf) (key : Key) (l : List Cf) (con con1 con' : ConStrs), k.kind = .key key →
      (∀ r, consoleClause env eof dir ⟨k, e :: v :: r⟩ con key = ⟨⟨v, r⟩, con1, false⟩) →
      (∀ (t : Cf) (r : List Cf) (n : Nat), (l ++ r).length < n → ∃ (t' : Cf) (m : Nat), r.length < m ∧ conLoop env eof dir n ⟨t, l ++ r⟩ con1 = conLoop env eof dir m ⟨t', r⟩ con') →
      ∀ (t : Cf) (r : List Cf) (n : Nat), ((k :: e :: v :: l) ++ r).length < n →
        ∃ (t' : Cf) (m : Nat), r.length < m ∧ conLoop env eof dir n ⟨t, (k :: e :: v :: l) ++ r⟩ con = conLoop env eof dir m ⟨t', r⟩ con' := by
    intro k e v key l con con1 con' hk hc ih t r n hn
    cases n with
    | zero => omega
    | succ n =>
      obtain ⟨t', m, hm, hd⟩ := ih v r n (by simp only [List.cons_append, List.length_cons] at hn; omega)
      refine ⟨t', m, hm, ?_⟩
      rw [← hd]
      simp only [List.cons_append]
      rw [conLoop]
      simp [Ps.next, hk, hc]
  induction hw with
  | nil con => intro t r n hn; exact ⟨t, n, hn, rfl⟩
  | name k e v s r con con' hk he hv hb h ih =>
    exact step k e v .name r con _ con' hk (fun r => by unfold consoleClause; dsimp only; rw [conClause_val _ _ _ _ _ _ _ he, optText_some hv hb]; rfl) ih
  | dev k e v s r con con' hk he hv hb h ih =>
    exact step k e v .dev r con _ con' hk (fun r => by unfold consoleClause; dsimp only; rw [conClause_val _ _ _ _ _ _ _ he, optText_some hv hb]; rfl) ih
  | noLog k e v s r con con' hk he hv hb h ih =>
    refine step k e v .log r con _ con' hk (fun r => ?_) ih
    unfold consoleClause; dsimp only; rw [conClause_val _ _ _ _ _ _ _ he]; unfold conLog
    rw [if_neg (str_pos hv), hv.2, if_pos (blank_true hb)]; rfl
  | log k e v s r con con' hk he hv hb hf h ih =>
    refine step k e v .log r con _ con' hk (fun r => ?_) ih
    unfold consoleClause; dsimp only; rw [conClause_val _ _ _ _ _ _ _ he]; unfold conLog
    rw [if_neg (str_pos hv), hv.2, if_neg (by simp [not_empty hb]), relName_fits hf]; rfl
  | logOpts k e v s r con con' hk he hv hb h ih =>
    exact step k e v .logopts r con _ con' hk (fun r => by unfold consoleClause; dsimp only; rw [conClause_val _ _ _ _ _ _ _ he, optText_some hv hb]; rfl) ih
  | serOpts k e v s r con con' hk he hv hb h ih =>
    exact step k e v .seropts r con _ con' hk (fun r => by unfold consoleClause; dsimp only; rw [conClause_val _ _ _ _ _ _ _ he, optText_some hv hb]; rfl) ih
  | ipmiOpts k e v s r con con' hk he hv hi h ih =>
    refine step k e v .ipmiopts r con _ con' hk (fun r => ?_) ih
    unfold consoleClause; dsimp only; rw [if_neg (by simp [hi]), conClause_val _ _ _ _ _ _ _ he, anyText_some hv]; rfl
  | testOpts k e v s r con con' hk he hv h ih =>
    exact step k e v .testopts r con _ con' hk (fun r => by unfold consoleClause; dsimp only; rw [conClause_val _ _ _ _ _ _ _ he, anyText_some hv]; rfl) ih

/-- A CONSOLE directive in order up to its end. -/
theorem console_run (env : CEnv) (e k : Cf) (l : List Cf) (con : ConStrs) (c : SConf) (he : e.kind = .eof) (hk : k.kind = .key .console) (hw : ConWrites env.withIpmi c.logDir l {} con) :
    directive env e k l c = conDone env e c ⟨⟨e, []⟩, con, false⟩ := by
  obtain ⟨t, m, hm, h⟩ := conLoop_writes env e c.logDir l {} con hw k [] (l.length + 1) (by simp)
  rw [List.append_nil] at h
  unfold directive
  rw [hk]
  dsimp only
  unfold parseConsole
  dsimp only
  rw [h]
  cases m with
  | zero => omega
  | succ m =>
    rw [conLoop]
    simp only [Ps.next, he]
    rfl

/-! ### Devices -/

theorem means_devKind {fs : Fs} {cwd : List UInt8} {path : Option (List UInt8)} {dev : List UInt8} {d : Dev} (h0 : fs.kind [] = none) (hz : (0 : UInt8) ∉ dev)
    (h : Means fs cwd path dev d) : devKind fs cwd path dev = some d := by
  obtain ⟨h1, h2, h3⟩ := h
  obtain ⟨d', hd⟩ := C70_total fs cwd path dev h1
  obtain ⟨h4, h5⟩ := C70_first_reading fs cwd path dev d' h0 hz hd
  rw [hd, C70_reading_unique fs cwd path dev d d' h0 hz h2 h4 (Nat.le_antisymm (h3 _ h4) (h5 _ h2))]

theorem device_of {env : CEnv} {c : SConf} {con : ConStrs} {line : Nat} {args : List (List UInt8)} {d : ConDev} (h0 : env.fs.kind [] = none) (hz : ∀ w ∈ args, (0 : UInt8) ∉ w)
    (h : DeviceOf env c con line args d) : conDevice env c con line args = some (some d) := by
  cases h with
  | process w f ws h =>
    unfold conDevice; dsimp only
    rw [means_devKind h0 (hz w List.mem_cons_self) h]; rfl
  | unixsock w p h =>
    unfold conDevice; dsimp only
    rw [means_devKind h0 (hz w List.mem_cons_self) h]; rfl
  | telnet w host port h =>
    unfold conDevice; dsimp only
    rw [means_devKind h0 (hz w List.mem_cons_self) h]; rfl
  | serial w p h hw ho =>
    unfold conDevice; dsimp only
    rw [means_devKind h0 (hz w List.mem_cons_self) h]
    dsimp only [Option.bind_some]
    rw [if_neg (by simp), if_neg (by simp [hw]), ho]
  | serialOpts w p f o h hw ho hs ha =>
    unfold conDevice; dsimp only
    rw [means_devKind h0 (hz w List.mem_cons_self) h]
    dsimp only [Option.bind_some]
    rw [if_neg (by simp), if_neg (by simp [hw]), ho]
    dsimp only
    rw [C44_serial_partial c.gSer f hs, ha]
    rfl
  | ipmi w host h hi ho =>
    unfold conDevice; dsimp only
    rw [means_devKind h0 (hz w List.mem_cons_self) h]
    dsimp only [Option.bind_some]
    rw [if_neg (by simp [hi]), if_neg (by simp), ho]
  | ipmiOpts w host s ts o h hi ho g0 ht hl ha =>
    unfold conDevice; dsimp only
    rw [means_devKind h0 (hz w List.mem_cons_self) h]
    dsimp only [Option.bind_some]
    rw [if_neg (by simp [hi]), if_neg (by simp), ho]
    dsimp only
    rw [((C44_ipmi env.lib c.gIpmi s ts g0 ht).1 o).2 ⟨hl, ha⟩]
    rfl
  | test w h ho =>
    unfold conDevice; dsimp only
    rw [means_devKind h0 (hz w List.mem_cons_self) h]
    dsimp only [Option.bind_some]
    rw [if_neg (by simp), ho]
  | testOpts w s ts l h ho ht hl hw he =>
    unfold conDevice; dsimp only
    rw [means_devKind h0 (hz w List.mem_cons_self) h]
    dsimp only [Option.bind_some]
    rw [if_neg (by simp), ho]
    dsimp only
    rw [he, C44_test_partial c.gTest s ts ht l hw hl]
    rfl

theorem no_device {env : CEnv} {c : SConf} {con : ConStrs} {line : Nat} {args : List (List UInt8)} (h0 : env.fs.kind [] = none) (hz : ∀ w ∈ args, (0 : UInt8) ∉ w)
    (h : NoDevice env c con args) : conDevice env c con line args = some none := by
  cases h with
  | noWords => rfl
  | unknown w ws h =>
    unfold conDevice; dsimp only
    rw [means_devKind h0 (hz w List.mem_cons_self) h]; rfl
  | tooMany w v ws d h hd =>
    unfold conDevice; dsimp only
    rw [means_devKind h0 (hz w List.mem_cons_self) h]
    dsimp only [Option.bind_some]
    cases d with
    | process f => exact absurd rfl (hd f)
    | unixsock p => simp
    | telnet a b => simp
    | serial p => simp
    | ipmi a => simp
    | test => simp
    | unknown => rfl
  | noAccess w p ws h hw =>
    unfold conDevice; dsimp only
    rw [means_devKind h0 (hz w List.mem_cons_self) h]
    dsimp only [Option.bind_some]
    rw [if_pos hw]
    simp
  | noIpmi w host ws h hi =>
    unfold conDevice; dsimp only
    rw [means_devKind h0 (hz w List.mem_cons_self) h]
    dsimp only [Option.bind_some]
    rw [if_pos hi]
  | serialOpts w p f h ho hs ha =>
    unfold conDevice; dsimp only
    rw [means_devKind h0 (hz w List.mem_cons_self) h]
    dsimp only [Option.bind_some]
    rw [if_neg (by simp)]
    split
    · rfl
    · rw [ho]
      dsimp only
      rw [C44_serial_partial c.gSer f hs, ha]
      rfl
  | ipmiOpts w host s ts h ho g0 ht ha =>
    unfold conDevice; dsimp only
    rw [means_devKind h0 (hz w List.mem_cons_self) h]
    dsimp only [Option.bind_some]
    split
    · rfl
    · rw [if_neg (by simp), ho]
      dsimp only
      rw [(C44_ipmi env.lib c.gIpmi s ts g0 ht).2 (fun ⟨o, ho⟩ => ha ⟨(((C44_ipmi env.lib c.gIpmi s ts g0 ht).1 o).1 ho).1, o, (((C44_ipmi env.lib c.gIpmi s ts g0 ht).1 o).1 ho).2⟩)]
      rfl
  | testOpts w s ts h ho ht ha =>
    unfold conDevice; dsimp only
    rw [means_devKind h0 (hz w List.mem_cons_self) h]
    dsimp only [Option.bind_some]
    rw [if_neg (by simp), ho]
    dsimp only
    rw [(C44_test_refused (env.erange line) c.gTest s ts ht (by
      rcases Nat.lt_or_ge s.length 1024 with g | g
      · exact Or.inr fun e => ha ⟨g, e⟩
      · exact Or.inl g)).2]
    rfl

theorem cmdLine_nz {ws : List Word} {s : List UInt8} (h : CmdLine ws s) (hs : (0 : UInt8) ∉ s) : ∀ w ∈ ws, (0 : UInt8) ∉ w.text := by
  induction h with
  | nil sp h => intro w hw; cases hw
  | last sp h w hw =>
    intro v hv g
    rw [List.mem_singleton.1 hv] at g
    exact hs (List.mem_append_right _ g)
  | cons sp h w hw c hc ws rest hr ih =>
    intro v hv g
    rcases List.mem_cons.1 hv with rfl | hv
    · exact hs (List.mem_append_left _ (List.mem_append_right _ g))
    · exact ih (fun g => hs (List.mem_append_right _ (List.mem_cons_of_mem _ g))) v hv g

theorem arg_nz {w : Word} {name : List UInt8} (hn : (0 : UInt8) ∉ name) (h : (0 : UInt8) ∉ w.text) : (0 : UInt8) ∉ w.arg name := by
  cases w with
  | bare w => exact substAll_nz h hn
  | quoted q w =>
    have hw : (0 : UInt8) ∉ w := fun g => h (by show (0 : UInt8) ∈ q :: (w ++ [q]); exact List.mem_cons_of_mem _ (List.mem_append_left _ g))
    unfold Word.arg
    dsimp only
    split
    · exact hw
    · exact substAll_nz hw hn

theorem args_nz {ws : List Word} {name s : List UInt8} (hn : (0 : UInt8) ∉ name) (h : CmdLine ws s) (hs : (0 : UInt8) ∉ s) : ∀ w ∈ ws.map (·.arg name), (0 : UInt8) ∉ w := by
  intro w hw
  obtain ⟨v, hv, rfl⟩ := List.mem_map.1 hw
  exact arg_nz hn (cmdLine_nz h hs v hv)

theorem mayCreate_iff (env : CEnv) (ks : List Console) (name : List UInt8) (d : ConDev) : mayCreate env ks name d = true ↔ Free env ks name d := by
  have key : ∀ a b, devClash a b = false ↔ ¬ SameDev a b := by
    intro a b
    constructor
    · intro h hs
      cases hs <;> simp [devClash] at h
    · intro h
      unfold devClash
      split
      · rw [decide_eq_false_iff_not]; rintro rfl; exact h (SameDev.unixsock _)
      · rw [decide_eq_false_iff_not]; rintro rfl; exact h (SameDev.serial _ _ _)
      · rw [decide_eq_false_iff_not]; rintro rfl; exact h (SameDev.ipmi _ _ _)
      · rfl
  unfold mayCreate
  rw [Bool.and_eq_true, List.all_eq_true]
  constructor
  · rintro ⟨h1, h2⟩
    refine ⟨?_, ?_, ?_, ?_⟩
    · rintro p rfl; simpa using h1
    · rintro h n rfl; simpa using h1
    · intro k hk
      have := h2 k hk
      rw [Bool.and_eq_true] at this
      simpa using this.1
    · intro k hk
      have := h2 k hk
      rw [Bool.and_eq_true] at this
      exact (key _ _).1 (by simpa using this.2)
  · rintro ⟨h1, h2, h3, h4⟩
    refine ⟨?_, ?_⟩
    · cases d with
      | unixsock p => simpa using h1 p rfl
      | telnet a b => simpa using h2 a b rfl
      | _ => rfl
    · intro k hk
      rw [Bool.and_eq_true]
      exact ⟨by simpa using h3 k hk, by simpa using (key _ _).2 (h4 k hk)⟩

/-! ### Log files -/

theorem fobj_eq (name : List UInt8) (d : ConDev) (l : Option (List UInt8 × LogOpt)) : Console.fobj ⟨name, d, l⟩ = ⟨true, name, devName d⟩ := by
  cases d <;> rfl

theorem logName_of {c : SConf} {con : ConStrs} {l : Option (List UInt8)} (h : LogNameFor c con l) : conLogName c con = l := by
  cases h with
  | none h =>
    unfold conLogName
    rcases h with h | ⟨h, hg⟩
    · rw [h]; rfl
    · rw [h, hg]
  | own l h hn hl =>
    unfold conLogName
    rw [h]
    dsimp only
    rw [if_neg hn, List.take_of_length_le (by omega)]
  | global g h hg hl =>
    unfold conLogName
    rw [h, hg]
    dsimp only
    unfold inDir at hl ⊢
    split at hl
    · rename_i h2
      rw [if_neg (by simp [h2]), if_pos h2, List.take_of_length_le (by omega)]
    · rename_i h2
      rw [if_pos h2, if_neg h2, List.take_of_length_le (by omega)]

theorem logOpts_of {c : SConf} {con : ConStrs} {o : LogOpt} (h : LogOptsFor c con o) : logOptsOf c con = (o, 0) := by
  cases h with
  | global h => unfold logOptsOf; rw [h]
  | own s ts h h0 hn hl ht =>
    unfold logOptsOf
    rw [h]
    dsimp only
    rw [C44_log_partial c.gLogOpt s h0 ts ht, if_neg (by rintro (g | g); exact hn g; omega)]

theorem logPname_of {env : CEnv} {name l n : List UInt8} {d : ConDev} (h : StandsFor env name d l n) :
    logPname env.pid env.tm ⟨Console.fobj ⟨name, d, none⟩, l⟩ = some n := by
  unfold logPname
  dsimp only
  rcases h with ⟨h, rfl⟩ | ⟨h, hl, rfl, hs, h0, htm⟩
  · rw [if_neg h]
  · rw [if_pos h, fobj_eq]
    obtain ⟨b, rc, hf, hlen, hfit, _⟩ := C41_expansion_partial (o := some ⟨true, name, devName d⟩) (pid := env.pid) htm (buf := List.replicate maxLine 0) (fmt := l)
      (fun h => by have := congrArg List.length h; rw [List.length_replicate] at this; exact absurd this (by decide)) hl
    obtain ⟨hrc, rest, hb⟩ := hfit (by rw [List.length_replicate]; exact hs)
    rw [hf]
    dsimp only [Option.bind_some]
    rw [if_pos (by rw [hrc]; omega), hb, cstr_app h0]

theorem logs_any {c : SConf} {n : List UInt8} : c.logs.any (fun k => decide (k.name = n)) = false ↔ LogUnused c.consoles n := by
  unfold SConf.logs LogUnused
  rw [List.any_eq_false]
  constructor
  · intro h k hk g hg
    have := h ⟨k.fobj, g.1⟩ (List.mem_filterMap.2 ⟨k, hk, by rw [hg]; rfl⟩)
    simpa using this
  · intro h q hq
    obtain ⟨k, hk, e⟩ := List.mem_filterMap.1 hq
    rw [Option.map_eq_some_iff] at e
    obtain ⟨g, hg, rfl⟩ := e
    simpa using h k hk g hg

theorem createLog_of {env : CEnv} {c : SConf} {name l n : List UInt8} {d : ConDev} (h : StandsFor env name d l n) (hu : LogUnused c.consoles n) :
    ∃ q, createLog env.pid env.tm c.logs ⟨Console.fobj ⟨name, d, none⟩, l⟩ = some (some q) := by
  unfold createLog
  rw [logPname_of h]
  dsimp only [Option.map_some]
  rw [if_neg (by rw [logs_any.2 hu]; simp)]
  exact ⟨_, rfl⟩

theorem createLog_used {env : CEnv} {c : SConf} {name l n : List UInt8} {d : ConDev} (h : StandsFor env name d l n) (hu : ¬ LogUnused c.consoles n) :
    createLog env.pid env.tm c.logs ⟨Console.fobj ⟨name, d, none⟩, l⟩ = some none := by
  unfold createLog
  rw [logPname_of h]
  dsimp only [Option.map_some]
  rw [if_pos]
  cases g : c.logs.any (fun k => decide (k.name = n)) with
  | true => rfl
  | false => exact absurd (logs_any.1 g) hu

/-! ### Processing -/

theorem asked_device {env : CEnv} {c : SConf} {con : ConStrs} {line : Nat} {name : List UInt8} {d : ConDev} (h0 : env.fs.kind [] = none) (h : Asked env c con line name d) :
    ∃ dev args, con.name = some name ∧ con.dev = some dev ∧ devArgs name dev = some args ∧ conDevice env c con line args = some (some d) := by
  obtain ⟨dev, ws, h1, h2, h3, h4, h5, h6, h7⟩ := h.words
  refine ⟨dev, _, h1, h2, ?_, device_of h0 (args_nz h3 h5 h4) h7⟩
  rw [C22_words name dev h3 h4 ws h5, if_pos (show fits name ws from h6)]

theorem processConsole_good {env : CEnv} {c : SConf} {con : ConStrs} {line : Nat} {name : List UInt8} {d : ConDev} {lg : Option (List UInt8 × LogOpt)} (h0 : env.fs.kind [] = none)
    (h : Asked env c con line name d) (hf : Free env c.consoles name d) (hl : LogFor env c con name d lg) :
    ∃ dev, con.name = some name ∧ con.dev = some dev ∧ processConsole env c con line name dev = some ({ c with consoles := c.consoles ++ [⟨name, d, lg⟩] }, true) := by
  obtain ⟨dev, args, h1, h2, h3, h4⟩ := asked_device h0 h
  refine ⟨dev, h1, h2, ?_⟩
  unfold processConsole
  rw [h3]
  dsimp only
  rw [h4]
  dsimp only [Option.bind_some]
  rw [if_neg (by simp [(mayCreate_iff env c.consoles name d).2 hf])]
  cases hl with
  | none h => rw [logName_of h]
  | some l n o h ho hn hu =>
    obtain ⟨q, hq⟩ := createLog_of hn hu
    rw [logName_of h]
    dsimp only
    rw [logOpts_of ho]
    dsimp only
    rw [if_neg (by decide), hq]
    rfl

theorem processConsole_log {env : CEnv} {c : SConf} {con : ConStrs} {line : Nat} {name : List UInt8} {d : ConDev} (h0 : env.fs.kind [] = none)
    (h : Asked env c con line name d) (hf : Free env c.consoles name d) (hl : LogBad env c con name d) :
    ∃ dev, con.name = some name ∧ con.dev = some dev ∧ processConsole env c con line name dev = some ({ c with consoles := c.consoles ++ [⟨name, d, none⟩] }, false) := by
  obtain ⟨dev, args, h1, h2, h3, h4⟩ := asked_device h0 h
  refine ⟨dev, h1, h2, ?_⟩
  unfold processConsole
  rw [h3]
  dsimp only
  rw [h4]
  dsimp only [Option.bind_some]
  rw [if_neg (by simp [(mayCreate_iff env c.consoles name d).2 hf])]
  cases hl with
  | opts l s h ho g0 hl =>
    obtain ⟨ts, ht, _⟩ := C44_words logSep s
    have : logOptsOf c con = (c.gLogOpt, -1) := by
      unfold logOptsOf
      rw [ho]
      dsimp only
      rw [C44_log_partial c.gLogOpt s g0 ts ht, if_pos (Or.inr hl)]
    rw [logName_of h]
    dsimp only
    rw [this, if_pos (show (-1 : Int) < 0 by decide)]
  | used l n o h ho hn hu =>
    rw [logName_of h]
    dsimp only
    rw [logOpts_of ho]
    dsimp only
    rw [if_neg (by decide), createLog_used hn hu]
    rfl

theorem conDone_refused {env : CEnv} {e : Cf} {c : SConf} {con : ConStrs} (h0 : env.fs.kind [] = none) (h : Refused env c con e.line) :
    conDone env e c ⟨⟨e, []⟩, con, false⟩ = some (dirEnd e ⟨⟨e, []⟩, c, true⟩) := by
  have via : ∀ name dev, con.name = some name → con.dev = some dev → processConsole env c con e.line name dev = some (c, false) →
      conDone env e c ⟨⟨e, []⟩, con, false⟩ = some (dirEnd e ⟨⟨e, []⟩, c, true⟩) := by
    intro name dev h1 h2 h3
    unfold conDone
    dsimp only
    rw [if_neg (by simp), h1, h2]
    dsimp only
    rw [h3]
    rfl
  cases h with
  | noName h =>
    unfold conDone
    dsimp only
    rw [if_neg (by simp), h]
  | noDev h =>
    unfold conDone
    dsimp only
    rw [if_neg (by simp), h]
    cases con.name <;> rfl
  | quote name dev hn hd g0 g1 h =>
    refine via name dev hn hd ?_
    unfold processConsole
    rw [C22_unmatched_partial name dev g0 g1 h]
  | long name dev ws w hn hd g0 g1 h hw hs hl =>
    refine via name dev hn hd ?_
    unfold processConsole
    rw [C22_words name dev g0 g1 ws h, if_neg]
    intro hf
    have := hf w hw hs
    unfold maxLine at this
    omega
  | noDevice name dev ws hn hd g0 g1 h hx =>
    refine via name dev hn hd ?_
    unfold processConsole
    rw [C22_words name dev g0 g1 ws h]
    split
    · rfl
    · rename_i args ha
      split at ha
      · cases ha
        rw [no_device h0 (args_nz g0 h g1) hx]
        rfl
      · cases ha
  | notFree name d h hf =>
    obtain ⟨dev, args, h1, h2, h3, h4⟩ := asked_device h0 h
    refine via name dev h1 h2 ?_
    unfold processConsole
    rw [h3]
    dsimp only
    rw [h4]
    dsimp only [Option.bind_some]
    rw [if_pos]
    cases g : mayCreate env c.consoles name d with
    | false => rfl
    | true => exact absurd ((mayCreate_iff env c.consoles name d).1 g) hf

/-! ### Malformed CONSOLE directives -/

theorem conBad_clause (env : CEnv) (eof k e v : Cf) (dir : List UInt8) (r : List Cf) (con : ConStrs) (key : Key) (he : e.kind = .eq)
    (h : v.kind ≠ .str ∨ key ∈ [Key.name, .dev, .logopts, .seropts] ∧ Blank v.text) :
    ∃ q, consoleClause env eof dir ⟨k, e :: v :: r⟩ con key = ⟨q, con, true⟩ ∧ (q = ⟨v, r⟩ ∨ q = ⟨k, e :: v :: r⟩) := by
  have ho : key ∈ [Key.name, .dev, .logopts, .seropts] → optText v = none := fun hk => optText_none (h.imp id (·.2))
  have hs : key ∉ [Key.name, .dev, .logopts, .seropts] → v.kind ≠ .str := fun hk => h.elim id fun g => absurd g.1 hk
  cases key with
  | name => exact ⟨_, by unfold consoleClause; dsimp only; rw [conClause_val _ _ _ _ _ _ _ he, ho (by decide)]; rfl, Or.inl rfl⟩
  | dev => exact ⟨_, by unfold consoleClause; dsimp only; rw [conClause_val _ _ _ _ _ _ _ he, ho (by decide)]; rfl, Or.inl rfl⟩
  | logopts => exact ⟨_, by unfold consoleClause; dsimp only; rw [conClause_val _ _ _ _ _ _ _ he, ho (by decide)]; rfl, Or.inl rfl⟩
  | seropts => exact ⟨_, by unfold consoleClause; dsimp only; rw [conClause_val _ _ _ _ _ _ _ he, ho (by decide)]; rfl, Or.inl rfl⟩
  | log => exact ⟨_, by unfold consoleClause; dsimp only; rw [conClause_val _ _ _ _ _ _ _ he]; unfold conLog; rw [if_pos (hs (by decide))]; rfl, Or.inl rfl⟩
  | testopts => exact ⟨_, by unfold consoleClause; dsimp only; rw [conClause_val _ _ _ _ _ _ _ he]; unfold anyText; rw [if_pos (hs (by decide))]; rfl, Or.inl rfl⟩
  | ipmiopts =>
    unfold consoleClause; dsimp only
    split
    · exact ⟨_, rfl, Or.inr rfl⟩
    · exact ⟨_, by rw [conClause_val _ _ _ _ _ _ _ he]; unfold anyText; rw [if_pos (hs (by decide))]; rfl, Or.inl rfl⟩
  | _ => exact ⟨_, rfl, Or.inr rfl⟩

theorem conNoEq_clause (env : CEnv) (eof : Cf) (dir : List UInt8) (p : Ps) (con : ConStrs) (key : Key) (h : (p.next eof).last.kind ≠ .eq) :
    ∃ q, consoleClause env eof dir p con key = ⟨q, con, true⟩ ∧ (q = p ∨ q = p.next eof) := by
  have hc : ∀ f, conClause eof p con f = ⟨p.next eof, con, true⟩ := fun f => by unfold conClause; rw [if_pos h]
  cases key with
  | ipmiopts =>
    unfold consoleClause; dsimp only
    split
    · exact ⟨_, rfl, Or.inl rfl⟩
    · exact ⟨_, hc _, Or.inr rfl⟩
  | name => exact ⟨_, by unfold consoleClause; dsimp only; exact hc _, Or.inr rfl⟩
  | dev => exact ⟨_, by unfold consoleClause; dsimp only; exact hc _, Or.inr rfl⟩
  | log => exact ⟨_, by unfold consoleClause; dsimp only; exact hc _, Or.inr rfl⟩
  | logopts => exact ⟨_, by unfold consoleClause; dsimp only; exact hc _, Or.inr rfl⟩
  | seropts => exact ⟨_, by unfold consoleClause; dsimp only; exact hc _, Or.inr rfl⟩
  | testopts => exact ⟨_, by unfold consoleClause; dsimp only; exact hc _, Or.inr rfl⟩
  | _ => exact ⟨_, rfl, Or.inl rfl⟩

theorem conNoValue_clause (env : CEnv) (eof k e : Cf) (dir : List UInt8) (con : ConStrs) (key : Key) (he : e.kind = .eq) (hf : eof.kind = .eof) :
    ∃ q, consoleClause env eof dir ⟨k, [e]⟩ con key = ⟨q, con, true⟩ ∧ (q = ⟨k, [e]⟩ ∨ q = ⟨eof, []⟩) := by
  have hk : eof.kind ≠ .str := by rw [hf]; decide
  have hc : ∀ f : Cf → Option ConStrs, f eof = none → conClause eof ⟨k, [e]⟩ con f = ⟨⟨eof, []⟩, con, true⟩ := by
    intro f h
    unfold conClause
    rw [if_neg (by simp [Ps.next, he])]
    simp only [Ps.next, h]
  have h1 : optText eof = none := optText_none (Or.inl hk)
  have h2 : anyText eof = none := by unfold anyText; rw [if_pos hk]
  cases key with
  | ipmiopts =>
    unfold consoleClause; dsimp only
    split
    · exact ⟨_, rfl, Or.inl rfl⟩
    · exact ⟨_, hc _ (by rw [h2]; rfl), Or.inr rfl⟩
  | name => exact ⟨_, by unfold consoleClause; dsimp only; exact hc _ (by rw [h1]; rfl), Or.inr rfl⟩
  | dev => exact ⟨_, by unfold consoleClause; dsimp only; exact hc _ (by rw [h1]; rfl), Or.inr rfl⟩
  | log => exact ⟨_, by unfold consoleClause; dsimp only; exact hc _ (by unfold conLog; rw [if_pos hk]; rfl), Or.inr rfl⟩
  | logopts => exact ⟨_, by unfold consoleClause; dsimp only; exact hc _ (by rw [h1]; rfl), Or.inr rfl⟩
  | seropts => exact ⟨_, by unfold consoleClause; dsimp only; exact hc _ (by rw [h1]; rfl), Or.inr rfl⟩
  | testopts => exact ⟨_, by unfold consoleClause; dsimp only; exact hc _ (by rw [h2]; rfl), Or.inr rfl⟩
  | _ => exact ⟨_, rfl, Or.inl rfl⟩

theorem conWrongKey_clause (env : CEnv) (eof : Cf) (dir : List UInt8) (p : Ps) (con : ConStrs) (key : Key) (h : key ∉ consoleKeys) :
    consoleClause env eof dir p con key = ⟨p, con, true⟩ := by
  cases key with
  | name => exact absurd (by decide) h
  | dev => exact absurd (by decide) h
  | log => exact absurd (by decide) h
  | logopts => exact absurd (by decide) h
  | seropts => exact absurd (by decide) h
  | ipmiopts => exact absurd (by decide) h
  | testopts => exact absurd (by decide) h
  | _ => rfl

theorem conMalformed_loop (env : CEnv) (e t : Cf) (dir : List UInt8) (l : List Cf) (con : ConStrs) (m : Nat) (he : e.kind = .eof) (hl : ∀ t ∈ l, Cf.inLine t)
    (h : ConMalformed env.withIpmi l) : ∃ q, conLoop env e dir (m + 1) ⟨t, l⟩ con = some ⟨q, con, true⟩ ∧ InLine e l q := by
  have viaKey : ∀ (x : Cf) (k : Key) (r : List Cf), x.kind = .key k → (∃ q, consoleClause env e dir ⟨x, r⟩ con k = ⟨q, con, true⟩ ∧ InLine e (x :: r) q) →
      ∃ q, conLoop env e dir (m + 1) ⟨t, x :: r⟩ con = some ⟨q, con, true⟩ ∧ InLine e (x :: r) q := by
    rintro x k r hk ⟨q, h1, h2⟩
    refine ⟨q, ?_, h2⟩
    rw [conLoop]
    simp [Ps.next, hk, h1]
  cases h with
  | notKey x r h =>
    refine ⟨⟨x, r⟩, ?_, InLine.at_ [] x r rfl⟩
    have hx := hl x List.mem_cons_self
    rw [conLoop]
    simp only [Ps.next]
    match hk : x.kind with
    | .eof => exact absurd hk hx.2
    | .eol => exact absurd hk hx.1
    | .key k => exact absurd hk (h k)
    | .err => rfl
    | .int => rfl
    | .str => rfl
    | .eq => rfl
    | .other => rfl
  | wrongKey x k r hk h => exact viaKey x k r hk ⟨_, conWrongKey_clause env e dir _ con k h, InLine.at_ [] x r rfl⟩
  | noIpmi x r hk h =>
    refine viaKey x .ipmiopts r hk ⟨_, ?_, InLine.at_ [] x r rfl⟩
    unfold consoleClause
    dsimp only
    rw [if_pos h]
  | noEq x k r hk h =>
    refine viaKey x k r hk ?_
    obtain ⟨q, h1, h2⟩ := conNoEq_clause env e dir ⟨x, r⟩ con k (by
      cases r with
      | nil => simp only [Ps.next, he]; decide
      | cons y r => exact h y rfl)
    refine ⟨q, h1, ?_⟩
    rcases h2 with rfl | rfl
    · exact InLine.at_ [] x r rfl
    · cases r with
      | nil => exact InLine.atEnd
      | cons y r => exact InLine.at_ [x] y r rfl
  | noValue x y k hk hy =>
    refine viaKey x k _ hk ?_
    obtain ⟨q, h1, h2⟩ := conNoValue_clause env e x y dir con k hy he
    refine ⟨q, h1, ?_⟩
    rcases h2 with rfl | rfl
    · exact InLine.at_ [] x _ rfl
    · exact InLine.atEnd
  | notText x y v k r hk hy h =>
    refine viaKey x k _ hk ?_
    obtain ⟨q, h1, h2⟩ := conBad_clause env e x y v dir r con k hy (Or.inl h)
    refine ⟨q, h1, ?_⟩
    rcases h2 with rfl | rfl
    · exact InLine.at_ [x, y] v r rfl
    · exact InLine.at_ [] x _ rfl
  | blank x y v k r hk hy hm h =>
    refine viaKey x k _ hk ?_
    obtain ⟨q, h1, h2⟩ := conBad_clause env e x y v dir r con k hy (Or.inr ⟨hm, h⟩)
    refine ⟨q, h1, ?_⟩
    rcases h2 with rfl | rfl
    · exact InLine.at_ [x, y] v r rfl
    · exact InLine.at_ [] x _ rfl

/-! ### GLOBAL directives -/

theorem gsets_clause (env : CEnv) (eof k e v : Cf) (r : List Cf) (c c' : SConf) (key : Key) (he : e.kind = .eq) (h : GSets env c key v c') :
    globalClause env eof ⟨k, e :: v :: r⟩ c key = some ⟨⟨v, r⟩, c', false⟩ := by
  cases h with
  | noLog _ s h hb =>
    unfold globalClause; dsimp only; rw [clause_val _ _ _ _ _ _ _ he]; unfold setGlobalLog
    rw [if_neg (str_pos h), h.2, if_pos (blank_true hb)]; rfl
  | log _ s h hb hp =>
    unfold globalClause; dsimp only; rw [clause_val _ _ _ _ _ _ _ he]; unfold setGlobalLog
    rw [if_neg (str_pos h), h.2, if_neg (by simp [not_empty hb]), if_neg (by rintro ⟨g1, g2⟩; exact hp.elim g1 g2)]; rfl
  | logOpts _ s ts h hb h0 hl ht =>
    have hne : s ≠ [] := by rintro rfl; exact hb (by intro c hc; cases hc)
    unfold globalClause; dsimp only; rw [clause_val _ _ _ _ _ _ _ he, optText_some h hb]
    dsimp only
    rw [C44_log_partial c.gLogOpt s h0 ts ht, if_neg (by rintro (g | g); exact hne g; omega)]; rfl
  | serOpts _ f o h hs ha =>
    have hb : ¬ Blank f.text := serForm_nonblank f
    unfold globalClause; dsimp only; rw [clause_val _ _ _ _ _ _ _ he, optText_some h hb]
    dsimp only
    rw [C44_serial_partial c.gSer f hs, ha]; rfl
  | ipmiOpts _ s ts o hi h hb h0 ht hl ha =>
    have hne : s ≠ [] := by rintro rfl; exact hb (by intro c hc; cases hc)
    unfold globalClause; dsimp only; rw [if_neg (by simp [hi]), clause_val _ _ _ _ _ _ _ he, optText_some h hb]
    dsimp only
    rw [((C44_ipmi env.lib c.gIpmi s ts h0 ht).1 o).2 ⟨hl, by simpa [hne] using ha⟩]; rfl
  | testOpts _ s ts l h hb ht hl hw he' =>
    unfold globalClause; dsimp only; rw [clause_val _ _ _ _ _ _ _ he, optText_some h hb]
    dsimp only
    rw [he', C44_test_partial c.gTest s ts ht l hw hl]; rfl

theorem dirLoop_gwrites (env : CEnv) (eof : Cf) : ∀ (l : List Cf) (c c' : SConf), GWrites env l c c' →
    ∀ (t : Cf) (r : List Cf) (n : Nat), (l ++ r).length < n →
      ∃ (t' : Cf) (m : Nat), r.length < m ∧ dirLoop eof (globalClause env eof) n ⟨t, l ++ r⟩ c = dirLoop eof (globalClause env eof) m ⟨t', r⟩ c' := by
  intro l c c' hw
  induction hw with
  | nil c => intro t r n hn; exact ⟨t, n, hn, rfl⟩
  | set k e v key l c c1 c' hk he h hw ih =>
    intro t r n hn
    cases n with
    | zero => omega
    | succ n =>
      obtain ⟨t', m, hm, hd⟩ := ih v r n (by simp only [List.cons_append, List.length_cons] at hn; omega)
      refine ⟨t', m, hm, ?_⟩
      rw [← hd]
      simp only [List.cons_append]
      rw [dirLoop]
      simp only [Ps.next, hk]
      rw [gsets_clause env eof k e v _ c c1 key he h]
      simp

/-- A refused clause of a GLOBAL directive with a value. -/
theorem gbad_clause (env : CEnv) (eof k e v : Cf) (r : List Cf) (c : SConf) (key : Key) (he : e.kind = .eq)
    (h : v.kind ≠ .str ∨ key ∈ [Key.logopts, .seropts, .ipmiopts, .testopts] ∧ Blank v.text) :
    ∃ q, globalClause env eof ⟨k, e :: v :: r⟩ c key = some ⟨q, c, true⟩ ∧ (q = ⟨v, r⟩ ∨ q = ⟨k, e :: v :: r⟩) := by
  have ho : key ∈ [Key.logopts, .seropts, .ipmiopts, .testopts] → optText v = none := fun hk => optText_none (h.imp id (·.2))
  have hs : key ∉ [Key.logopts, .seropts, .ipmiopts, .testopts] → v.kind ≠ .str := fun hk => h.elim id fun g => absurd g.1 hk
  cases key with
  | log => exact ⟨_, by unfold globalClause; dsimp only; refine clause_bad eof k e v r c _ he ?_; unfold setGlobalLog; rw [if_pos (hs (by decide))], Or.inl rfl⟩
  | logopts => exact ⟨_, by unfold globalClause; dsimp only; refine clause_bad eof k e v r c _ he ?_; rw [ho (by decide)], Or.inl rfl⟩
  | seropts => exact ⟨_, by unfold globalClause; dsimp only; refine clause_bad eof k e v r c _ he ?_; rw [ho (by decide)], Or.inl rfl⟩
  | testopts => exact ⟨_, by unfold globalClause; dsimp only; refine clause_bad eof k e v r c _ he ?_; rw [ho (by decide)], Or.inl rfl⟩
  | ipmiopts =>
    unfold globalClause; dsimp only
    split
    · exact ⟨_, rfl, Or.inr rfl⟩
    · exact ⟨_, by refine clause_bad eof k e v r c _ he ?_; rw [ho (by decide)], Or.inl rfl⟩
  | _ => exact ⟨_, rfl, Or.inr rfl⟩

theorem gNoEq_clause (env : CEnv) (eof : Cf) (p : Ps) (c : SConf) (key : Key) (h : (p.next eof).last.kind ≠ .eq) :
    ∃ q, globalClause env eof p c key = some ⟨q, c, true⟩ ∧ (q = p ∨ q = p.next eof) := by
  have hc : ∀ f, clause eof p c f = some ⟨p.next eof, c, true⟩ := fun f => by unfold clause; rw [if_pos h]
  cases key with
  | ipmiopts =>
    unfold globalClause; dsimp only
    split
    · exact ⟨_, rfl, Or.inl rfl⟩
    · exact ⟨_, hc _, Or.inr rfl⟩
  | log => exact ⟨_, by unfold globalClause; dsimp only; exact hc _, Or.inr rfl⟩
  | logopts => exact ⟨_, by unfold globalClause; dsimp only; exact hc _, Or.inr rfl⟩
  | seropts => exact ⟨_, by unfold globalClause; dsimp only; exact hc _, Or.inr rfl⟩
  | testopts => exact ⟨_, by unfold globalClause; dsimp only; exact hc _, Or.inr rfl⟩
  | _ => exact ⟨_, rfl, Or.inl rfl⟩

theorem gNoValue_clause (env : CEnv) (eof k e : Cf) (c : SConf) (key : Key) (he : e.kind = .eq) (hf : eof.kind = .eof) :
    ∃ q, globalClause env eof ⟨k, [e]⟩ c key = some ⟨q, c, true⟩ ∧ (q = ⟨k, [e]⟩ ∨ q = ⟨eof, []⟩) := by
  have hk : eof.kind ≠ .str := by rw [hf]; decide
  have hc : ∀ f : Cf → Option (SConf × Bool), f eof = some (c, false) → clause eof ⟨k, [e]⟩ c f = some ⟨⟨eof, []⟩, c, true⟩ := by
    intro f h
    unfold clause
    rw [if_neg (by simp [Ps.next, he])]
    simp only [Ps.next]
    rw [h]; rfl
  have h1 : optText eof = none := optText_none (Or.inl hk)
  cases key with
  | ipmiopts =>
    unfold globalClause; dsimp only
    split
    · exact ⟨_, rfl, Or.inl rfl⟩
    · exact ⟨_, hc _ (by rw [h1]), Or.inr rfl⟩
  | log => exact ⟨_, by unfold globalClause; dsimp only; exact hc _ (by unfold setGlobalLog; rw [if_pos hk]), Or.inr rfl⟩
  | logopts => exact ⟨_, by unfold globalClause; dsimp only; exact hc _ (by rw [h1]), Or.inr rfl⟩
  | seropts => exact ⟨_, by unfold globalClause; dsimp only; exact hc _ (by rw [h1]), Or.inr rfl⟩
  | testopts => exact ⟨_, by unfold globalClause; dsimp only; exact hc _ (by rw [h1]), Or.inr rfl⟩
  | _ => exact ⟨_, rfl, Or.inl rfl⟩

theorem gWrongKey_clause (env : CEnv) (eof : Cf) (p : Ps) (c : SConf) (key : Key) (h : key ∉ globalKeys) : globalClause env eof p c key = some ⟨p, c, true⟩ := by
  cases key with
  | log => exact absurd (by decide) h
  | logopts => exact absurd (by decide) h
  | seropts => exact absurd (by decide) h
  | ipmiopts => exact absurd (by decide) h
  | testopts => exact absurd (by decide) h
  | _ => rfl

theorem gmalformed_loop (env : CEnv) (e t : Cf) (l : List Cf) (c : SConf) (m : Nat) (he : e.kind = .eof) (hl : ∀ t ∈ l, Cf.inLine t) (h : GMalformed env c l) :
    ∃ q, dirLoop e (globalClause env e) (m + 1) ⟨t, l⟩ c = some ⟨q, c, true⟩ ∧ InLine e l q := by
  have viaKey : ∀ (x : Cf) (k : Key) (r : List Cf), x.kind = .key k → (∃ q, globalClause env e ⟨x, r⟩ c k = some ⟨q, c, true⟩ ∧ InLine e (x :: r) q) →
      ∃ q, dirLoop e (globalClause env e) (m + 1) ⟨t, x :: r⟩ c = some ⟨q, c, true⟩ ∧ InLine e (x :: r) q := by
    rintro x k r hk ⟨q, h1, h2⟩
    refine ⟨q, ?_, h2⟩
    rw [dirLoop]
    simp only [Ps.next, hk]
    rw [h1]
    simp
  have viaVal : ∀ (x y v : Cf) (k : Key) (r : List Cf), x.kind = .key k → y.kind = .eq →
      (∃ q, globalClause env e ⟨x, y :: v :: r⟩ c k = some ⟨q, c, true⟩ ∧ (q = ⟨v, r⟩ ∨ q = ⟨x, y :: v :: r⟩)) →
      ∃ q, dirLoop e (globalClause env e) (m + 1) ⟨t, x :: y :: v :: r⟩ c = some ⟨q, c, true⟩ ∧ InLine e (x :: y :: v :: r) q := by
    rintro x y v k r hk hy ⟨q, h1, h2⟩
    refine viaKey x k _ hk ⟨q, h1, ?_⟩
    rcases h2 with rfl | rfl
    · exact InLine.at_ [x, y] v r rfl
    · exact InLine.at_ [] x _ rfl
  have opt : ∀ v : Cf, optText v = none ∨ (optText v = some v.text ∧ v.kind = .str ∧ ¬ Blank v.text) := by
    intro v
    by_cases h1 : v.kind ≠ .str ∨ Blank v.text
    · exact Or.inl (optText_none h1)
    · rw [not_or, Classical.not_not] at h1
      exact Or.inr ⟨optText_some ⟨h1.1, rfl⟩ h1.2, h1⟩
  cases h with
  | notKey x r h =>
    refine ⟨⟨x, r⟩, ?_, InLine.at_ [] x r rfl⟩
    have hx := hl x List.mem_cons_self
    rw [dirLoop]
    simp only [Ps.next]
    match hk : x.kind with
    | .eof => exact absurd hk hx.2
    | .eol => exact absurd hk hx.1
    | .key k => exact absurd hk (h k)
    | .err => rfl
    | .int => rfl
    | .str => rfl
    | .eq => rfl
    | .other => rfl
  | wrongKey x k r hk h => exact viaKey x k r hk ⟨_, gWrongKey_clause env e _ c k h, InLine.at_ [] x r rfl⟩
  | noIpmi x r hk h =>
    refine viaKey x .ipmiopts r hk ⟨_, ?_, InLine.at_ [] x r rfl⟩
    unfold globalClause
    dsimp only
    rw [if_pos h]
  | noEq x k r hk h =>
    refine viaKey x k r hk ?_
    obtain ⟨q, h1, h2⟩ := gNoEq_clause env e ⟨x, r⟩ c k (by
      cases r with
      | nil => simp only [Ps.next, he]; decide
      | cons y r => exact h y rfl)
    refine ⟨q, h1, ?_⟩
    rcases h2 with rfl | rfl
    · exact InLine.at_ [] x r rfl
    · cases r with
      | nil => exact InLine.atEnd
      | cons y r => exact InLine.at_ [x] y r rfl
  | noValue x y k hk hy =>
    refine viaKey x k _ hk ?_
    obtain ⟨q, h1, h2⟩ := gNoValue_clause env e x y c k hy he
    refine ⟨q, h1, ?_⟩
    rcases h2 with rfl | rfl
    · exact InLine.at_ [] x _ rfl
    · exact InLine.atEnd
  | notText x y v k r hk hy h => exact viaVal x y v k r hk hy (gbad_clause env e x y v r c k hy (Or.inl h))
  | blank x y v k r hk hy hm h => exact viaVal x y v k r hk hy (gbad_clause env e x y v r c k hy (Or.inr ⟨hm, h⟩))
  | noName x y v r hk hy hb hn hd =>
    refine viaVal x y v .log r hk hy ⟨_, ?_, Or.inl rfl⟩
    unfold globalClause; dsimp only
    refine clause_bad e x y v r c _ hy ?_
    unfold setGlobalLog
    split
    · rfl
    · rw [if_neg (by simp [not_empty hb]), if_pos ⟨hn, hd⟩]
  | logOpts x y v r hk hy h0 hlen =>
    refine viaVal x y v .logopts r hk hy ⟨_, ?_, Or.inl rfl⟩
    unfold globalClause; dsimp only
    refine clause_bad e x y v r c _ hy ?_
    rcases opt v with ho | ⟨ho, _, _⟩
    · rw [ho]
    · obtain ⟨ts, ht, _⟩ := C44_words logSep v.text
      rw [ho]
      dsimp only
      rw [C44_log_partial c.gLogOpt v.text h0 ts ht, if_pos (Or.inr hlen)]
      rfl
  | serOpts x y v r f hk hy h hs ha =>
    refine viaVal x y v .seropts r hk hy ⟨_, ?_, Or.inl rfl⟩
    unfold globalClause; dsimp only
    refine clause_bad e x y v r c _ hy ?_
    rw [optText_some h (serForm_nonblank f)]
    dsimp only
    rw [C44_serial_partial c.gSer f hs, ha]
    rfl
  | ipmiOpts x y v r ts hk hy hb h0 ht ha =>
    have hne : v.text ≠ [] := by intro g; exact hb (by rw [g]; intro c hc; cases hc)
    refine viaVal x y v .ipmiopts r hk hy ?_
    unfold globalClause; dsimp only
    split
    · exact ⟨_, rfl, Or.inr rfl⟩
    · refine ⟨_, clause_bad e x y v r c _ hy ?_, Or.inl rfl⟩
      rcases opt v with ho | ⟨ho, _, _⟩
      · rw [ho]
      · rw [ho]
        dsimp only
        rw [(C44_ipmi env.lib c.gIpmi v.text ts h0 ht).2 (fun ⟨o, ho⟩ => ha ⟨(((C44_ipmi env.lib c.gIpmi v.text ts h0 ht).1 o).1 ho).1, o,
          by simpa [hne] using (((C44_ipmi env.lib c.gIpmi v.text ts h0 ht).1 o).1 ho).2⟩)]
        rfl
  | testOpts x y v r ts hk hy ht ha =>
    refine viaVal x y v .testopts r hk hy ⟨_, ?_, Or.inl rfl⟩
    unfold globalClause; dsimp only
    refine clause_bad e x y v r c _ hy ?_
    rcases opt v with ho | ⟨ho, _, _⟩
    · rw [ho]
    · rw [ho]
      dsimp only
      obtain ⟨g1, g2⟩ := C44_test_refused (env.erange v.line) c.gTest v.text ts ht (by
        rcases Nat.lt_or_ge v.text.length 1024 with g | g
        · exact Or.inr fun e => ha ⟨g, e⟩
        · exact Or.inl g)
      rw [g1, g2]
      rfl

/-- If an error is reported after a console was added, the console has no log. -/
theorem processConsole_log_none {env : CEnv} {c : SConf} {con : ConStrs} {line : Nat} {name dev : List UInt8} {r : SConf × Bool} (h : processConsole env c con line name dev = some r)
    (hr : r.2 = false) (k : Console) (hk : r.1 = { c with consoles := c.consoles ++ [k] }) : k.log = none := by
  have same : c = { c with consoles := c.consoles ++ [k] } → False := by
    intro g
    have := congrArg (fun x => x.consoles.length) g
    simp at this
  have one : ∀ k' : Console, ({ c with consoles := c.consoles ++ [k'] } : SConf) = { c with consoles := c.consoles ++ [k] } → k' = k := by
    intro k' g
    have := congrArg SConf.consoles g
    simpa using this
  unfold processConsole at h
  split at h
  · cases h; exact (same hk).elim
  · rw [Option.bind_eq_some_iff] at h
    obtain ⟨d, hd, h⟩ := h
    split at h
    · cases h; exact (same hk).elim
    · split at h
      · cases h; exact (same hk).elim
      · split at h
        · cases h; cases hr
        · split at h
          · cases h; rw [← one _ hk]
          · rw [Option.map_eq_some_iff] at h
            obtain ⟨q, hq, h⟩ := h
            split at h
            · cases h; rw [← one _ hk]
            · cases h; cases hr

end Conman
