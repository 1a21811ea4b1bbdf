import Verif.Lemma.ConfFrame
import Verif.Lemma.LexRun
import Verif.Props.Lex
import Verif.Spec.ServerArgs

/-
Settings only change by their keywords.
-/
namespace Conman
open Spec

/-- What is unchanged when only the keywords `has` are there. -/
structure KeyFrame (has : Conman.Key → Prop) (c c' : SConf) : Prop where
  coreDump : ¬ has .coredump → c'.coreDump = c.coreDump
  coreDumpDir : ¬ has .coredumpdir → c'.coreDumpDir = c.coreDumpDir
  execPath : ¬ has .execpath → c'.execPath = c.execPath
  keepAlive : ¬ has .keepalive → c'.keepAlive = c.keepAlive
  logDir : ¬ has .logdir → c'.logDir = c.logDir
  logFile : ¬ has .logfile → c'.logFile = c.logFile
  logLevel : ¬ has .logfile → c'.logLevel = c.logLevel
  loopBack : ¬ has .loopback → c'.loopBack = c.loopBack
  noFile : ¬ has .nofile → c'.noFile = c.noFile
  pidFile : ¬ has .pidfile → c'.pidFile = c.pidFile
  port : ¬ has .port → c'.port = c.port
  resetCmd : ¬ has .resetcmd → c'.resetCmd = c.resetCmd
  syslog : ¬ has .syslog → c'.syslog = c.syslog
  tcpWrap : ¬ has .tcpwrappers → c'.tcpWrap = c.tcpWrap
  stamp : ¬ has .timestamp → c'.stamp = c.stamp
  gLog : ¬ has .log → c'.gLog = c.gLog
  gLogOpt : ¬ has .logopts → c'.gLogOpt = c.gLogOpt
  gSer : ¬ has .seropts → c'.gSer = c.gSer
  gIpmi : ¬ has .ipmiopts → c'.gIpmi = c.gIpmi
  gTest : ¬ has .testopts → c'.gTest = c.gTest
  consoles : ¬ has .console → c'.consoles = c.consoles
  cwd : c'.cwd = c.cwd

theorem KeyFrame.refl (has : Conman.Key → Prop) (c : SConf) : KeyFrame has c c :=
  ⟨fun _ => rfl, fun _ => rfl, fun _ => rfl, fun _ => rfl, fun _ => rfl, fun _ => rfl, fun _ => rfl, fun _ => rfl, fun _ => rfl, fun _ => rfl, fun _ => rfl, fun _ => rfl, fun _ => rfl, fun _ => rfl, fun _ => rfl, fun _ => rfl, fun _ => rfl, fun _ => rfl, fun _ => rfl, fun _ => rfl, fun _ => rfl, rfl⟩

theorem KeyFrame.trans {has : Conman.Key → Prop} {c c' c'' : SConf} (h : KeyFrame has c c') (h' : KeyFrame has c' c'') : KeyFrame has c c'' :=
  ⟨fun g => (h'.coreDump g).trans (h.coreDump g), fun g => (h'.coreDumpDir g).trans (h.coreDumpDir g), fun g => (h'.execPath g).trans (h.execPath g), fun g => (h'.keepAlive g).trans (h.keepAlive g), fun g => (h'.logDir g).trans (h.logDir g), fun g => (h'.logFile g).trans (h.logFile g), fun g => (h'.logLevel g).trans (h.logLevel g), fun g => (h'.loopBack g).trans (h.loopBack g), fun g => (h'.noFile g).trans (h.noFile g), fun g => (h'.pidFile g).trans (h.pidFile g), fun g => (h'.port g).trans (h.port g), fun g => (h'.resetCmd g).trans (h.resetCmd g), fun g => (h'.syslog g).trans (h.syslog g), fun g => (h'.tcpWrap g).trans (h.tcpWrap g), fun g => (h'.stamp g).trans (h.stamp g), fun g => (h'.gLog g).trans (h.gLog g), fun g => (h'.gLogOpt g).trans (h.gLogOpt g), fun g => (h'.gSer g).trans (h.gSer g), fun g => (h'.gIpmi g).trans (h.gIpmi g), fun g => (h'.gTest g).trans (h.gTest g), fun g => (h'.consoles g).trans (h.consoles g), h'.cwd.trans h.cwd⟩

/-- Changes of the setting of the keyword `hk` only. -/
macro "key_easy" : tactic => `(tactic| (constructor <;> first | exact rfl | exact fun _ => rfl | exact fun g => absurd (by assumption) g))

theorem serverClause_keys {has : Conman.Key → Prop} (env : CEnv) (eof : Cf) (a b : Bool) (p : Ps) (c : SConf) (k : Conman.Key) (hk : has k) {o : Out} (h : serverClause env eof a b p c k = some o) :
    KeyFrame has c o.conf := by
  have hr := KeyFrame.refl has c
  cases k with
  | coredump => unfold serverClause at h; dsimp only at h; exact clause_frame hr (fun t q hq => onOff_frame hr (fun b => by key_easy) t q hq) h
  | keepalive => unfold serverClause at h; dsimp only at h; exact clause_frame hr (fun t q hq => onOff_frame hr (fun b => by key_easy) t q hq) h
  | loopback => unfold serverClause at h; dsimp only at h; exact clause_frame hr (fun t q hq => onOff_frame hr (fun b => by key_easy) t q hq) h
  | tcpwrappers =>
    unfold serverClause at h; dsimp only at h
    split at h
    · cases h; exact hr
    · exact clause_frame hr (fun t q hq => onOff_frame hr (fun b => by key_easy) t q hq) h
  | coredumpdir =>
    unfold serverClause at h; dsimp only at h
    refine clause_frame hr (fun t q hq => ?_) h
    unfold setCoreDumpDir at hq
    split at hq
    · cases hq; exact hr
    · split at hq
      · cases hq; key_easy
      · split at hq
        · cases hq; exact hr
        · split at hq
          · cases hq; exact hr
          · cases hq; key_easy
  | execpath =>
    unfold serverClause at h; dsimp only at h
    refine clause_frame hr (fun t q hq => ?_) h
    unfold setExecPath at hq
    split at hq
    · cases hq; exact hr
    · split at hq
      · cases hq; exact hr
      · split at hq <;> (cases hq; key_easy)
  | logdir =>
    unfold serverClause at h; dsimp only at h
    refine clause_frame hr (fun t q hq => ?_) h
    unfold setLogDir at hq
    split at hq
    · cases hq; exact hr
    · split at hq <;> (cases hq; key_easy)
  | logfile =>
    unfold serverClause at h; dsimp only at h
    refine clause_frame hr (fun t q hq => ?_) h
    unfold setLogFile at hq
    split at hq
    · cases hq; exact hr
    · split at hq
      · cases hq; key_easy
      · split at hq <;> (cases hq; key_easy)
  | nofile =>
    unfold serverClause at h; dsimp only at h
    refine clause_frame hr (fun t q hq => ?_) h
    unfold setNoFile at hq
    split at hq
    · cases hq; exact hr
    · rw [Option.map_eq_some_iff] at hq
      obtain ⟨n, _, rfl⟩ := hq
      key_easy
  | pidfile =>
    unfold serverClause at h; dsimp only at h
    refine clause_frame hr (fun t q hq => ?_) h
    unfold setPidFile at hq
    split at hq
    · cases hq; exact hr
    · split at hq
      · rename_i ha
        cases hq
        key_easy
      · cases hq; exact hr
  | port =>
    unfold serverClause at h; dsimp only at h
    refine clause_frame hr (fun t q hq => ?_) h
    unfold setPort at hq
    split at hq
    · cases hq; exact hr
    · rw [Option.map_eq_some_iff] at hq
      obtain ⟨n, _, hq⟩ := hq
      split at hq
      · cases hq; exact hr
      · split at hq
        · rename_i ha
          cases hq
          key_easy
        · cases hq; exact hr
  | resetcmd =>
    unfold serverClause at h; dsimp only at h
    refine clause_frame hr (fun t q hq => ?_) h
    unfold setResetCmd at hq
    split at hq
    · cases hq; exact hr
    · cases hq; key_easy
  | syslog =>
    unfold serverClause at h; dsimp only at h
    refine clause_frame hr (fun t q hq => ?_) h
    unfold setSyslog at hq
    split at hq
    · cases hq; exact hr
    · split at hq
      · cases hq; exact hr
      · cases hq; key_easy
  | timestamp =>
    unfold serverClause setStamp at h; dsimp only at h
    split at h
    · cases h; exact hr
    · split at h
      · cases h; exact hr
      · rw [Option.bind_eq_some_iff] at h
        obtain ⟨n, _, h⟩ := h
        split at h
        · cases h; exact hr
        · rw [Option.map_eq_some_iff] at h
          obtain ⟨m, _, h⟩ := h
          split at h <;> (cases h; key_easy)
  | _ => cases h; exact hr

theorem globalClause_keys {has : Conman.Key → Prop} (env : CEnv) (eof : Cf) (p : Ps) (c : SConf) (k : Conman.Key) (hk : has k) {o : Out} (h : globalClause env eof p c k = some o) :
    KeyFrame has c o.conf := by
  have hr := KeyFrame.refl has c
  cases k with
  | log =>
    unfold globalClause at h; dsimp only at h
    refine clause_frame hr (fun t q hq => ?_) h
    unfold setGlobalLog at hq
    split at hq
    · cases hq; exact hr
    · split at hq
      · cases hq; key_easy
      · split at hq
        · cases hq; exact hr
        · cases hq; key_easy
  | logopts =>
    unfold globalClause at h; dsimp only at h
    refine clause_frame hr (fun t q hq => ?_) h
    split at hq
    · cases hq; exact hr
    · cases hq; key_easy
  | seropts =>
    unfold globalClause at h; dsimp only at h
    refine clause_frame hr (fun t q hq => ?_) h
    split at hq
    · cases hq; exact hr
    · rw [Option.map_eq_some_iff] at hq
      obtain ⟨n, _, rfl⟩ := hq
      key_easy
  | ipmiopts =>
    unfold globalClause at h; dsimp only at h
    split at h
    · cases h; exact hr
    · refine clause_frame hr (fun t q hq => ?_) h
      split at hq
      · cases hq; exact hr
      · rw [Option.map_eq_some_iff] at hq
        obtain ⟨n, _, rfl⟩ := hq
        key_easy
  | testopts =>
    unfold globalClause at h; dsimp only at h
    refine clause_frame hr (fun t q hq => ?_) h
    split at hq
    · cases hq; exact hr
    · cases hq; key_easy
  | _ => cases h; exact hr

theorem dirLoop_keys {T : List Cf} {has : Conman.Key → Prop} (hT : ∀ t ∈ T, ∀ k, t.kind = .key k → has k) {eof : Cf} (he : eof ∈ T) (f : Ps → SConf → Conman.Key → Option Out)
    (hf : ∀ p c k o, has k → f p c k = some o → KeyFrame has c o.conf) (hw : ∀ p c k o, Within T p → f p c k = some o → Within T o.ps) :
    ∀ (n : Nat) (p : Ps) (c : SConf) (o : Out), Within T p → dirLoop eof f n p c = some o → KeyFrame has c o.conf := by
  intro n
  induction n with
  | zero => intro p c o _ h; rw [dirLoop] at h; cases h
  | succ n ih =>
    intro p c o hp h
    have hn := hp.next he
    rw [dirLoop] at h
    split at h
    · cases h; exact KeyFrame.refl _ c
    · cases h; exact KeyFrame.refl _ c
    · rename_i k hk
      rw [Option.bind_eq_some_iff] at h
      obtain ⟨q, hq, h⟩ := h
      have := hf _ _ _ _ (hT _ hn.1 _ hk) hq
      split at h
      · cases h; exact this
      · exact this.trans (ih _ _ _ (hw _ _ _ _ hn hq) h)
    · cases h; exact KeyFrame.refl _ c

theorem skipLine_within {T : List Cf} {eof : Cf} (he : eof ∈ T) : ∀ (ts : List Cf) (last : Cf), last ∈ T → (∀ x ∈ ts, x ∈ T) → Within T (skipLine eof last ts) := by
  intro ts
  induction ts with
  | nil =>
    intro last hl _
    rw [skipLine]
    split
    · exact ⟨hl, fun x hx => by cases hx⟩
    · exact ⟨he, fun x hx => by cases hx⟩
  | cons t ts ih =>
    intro last hl hs
    rw [skipLine]
    split
    · exact ⟨hl, hs⟩
    · exact ih t (hs t (by simp)) fun x hx => hs x (by simp [hx])

theorem dirEnd_within {T : List Cf} {eof : Cf} (he : eof ∈ T) (o : Out) (h : Within T o.ps) : Within T (dirEnd eof o).1 := by
  unfold dirEnd
  split
  · exact skipLine_within he _ _ h.1 h.2
  · exact h

theorem dirEnd_keys {has : Conman.Key → Prop} (eof : Cf) (o : Out) {c : SConf} (h : KeyFrame has c o.conf) : KeyFrame has c (dirEnd eof o).2 := by
  rw [dirEnd_conf]
  split
  · refine h.trans ?_
    constructor <;> first | exact rfl | exact fun _ => rfl
  · exact h

theorem directive_keys {T : List Cf} {has : Conman.Key → Prop} (hT : ∀ t ∈ T, ∀ k, t.kind = .key k → has k) (env : CEnv) {eof t : Cf} {ts : List Cf} {c : SConf} (he : eof ∈ T) (ht : t ∈ T)
    (hs : ∀ x ∈ ts, x ∈ T) {r : Ps × SConf} (h : directive env eof t ts c = some r) : KeyFrame has c r.2 ∧ Within T r.1 := by
  have hw : Within T ⟨t, ts⟩ := ⟨ht, hs⟩
  have self := KeyFrame.refl has c
  unfold directive at h
  split at h
  · rename_i hk
    unfold parseConsole at h
    rw [Option.bind_eq_some_iff] at h
    obtain ⟨o, ho, h⟩ := h
    have hw := conLoop_within env c.logDir he _ _ _ _ hw ho
    unfold conDone at h
    split at h
    · cases h; exact ⟨dirEnd_keys eof ⟨o.ps, c, true⟩ self, dirEnd_within he ⟨o.ps, c, true⟩ hw⟩
    · split at h
      · rw [Option.map_eq_some_iff] at h
        obtain ⟨q, hq, rfl⟩ := h
        rcases processConsole_frame env c _ _ _ _ hq with rfl | ⟨k, _, hc, _, _⟩
        · exact ⟨dirEnd_keys eof ⟨o.ps, c, true⟩ self, dirEnd_within he ⟨o.ps, c, true⟩ hw⟩
        · refine ⟨dirEnd_keys eof ⟨o.ps, q.1, !q.2⟩ ?_, dirEnd_within he ⟨o.ps, q.1, !q.2⟩ hw⟩
          have hh : has .console := hT t ht _ hk
          dsimp only
          rw [hc]
          key_easy
      · cases h; exact ⟨dirEnd_keys eof ⟨o.ps, c, true⟩ self, dirEnd_within he ⟨o.ps, c, true⟩ hw⟩
  · unfold parseGlobal at h
    rw [Option.map_eq_some_iff] at h
    obtain ⟨o, ho, rfl⟩ := h
    refine ⟨dirEnd_keys eof o ?_, dirEnd_within he o ?_⟩
    · exact dirLoop_keys hT he _ (fun p c k o hk h => globalClause_keys env eof p c k hk h) (fun p c k o hp h => globalClause_within env he hp h) _ _ _ _ hw ho
    · exact dirLoop_within he _ (fun p c k o hp h => globalClause_within env he hp h) _ _ _ _ hw ho
  · unfold parseServer at h
    rw [Option.map_eq_some_iff] at h
    obtain ⟨o, ho, rfl⟩ := h
    refine ⟨dirEnd_keys eof o ?_, dirEnd_within he o ?_⟩
    · exact dirLoop_keys hT he _ (fun p c k o hk h => serverClause_keys env eof _ _ p c k hk h) (fun p c k o hp h => serverClause_within env _ _ he hp h) _ _ _ _ hw ho
    · exact dirLoop_within he _ (fun p c k o hp h => serverClause_within env _ _ he hp h) _ _ _ _ hw ho
  · cases h; exact ⟨self, hw⟩
  · cases h
    refine ⟨?_, hw⟩
    constructor <;> first | exact rfl | exact fun _ => rfl
  · cases h; exact ⟨dirEnd_keys eof ⟨⟨t, ts⟩, c, true⟩ self, dirEnd_within he ⟨⟨t, ts⟩, c, true⟩ hw⟩

theorem confLoop_keys {T : List Cf} {has : Conman.Key → Prop} (hT : ∀ t ∈ T, ∀ k, t.kind = .key k → has k) (env : CEnv) {eof : Cf} (he : eof ∈ T) :
    ∀ (n : Nat) (ts : List Cf) (c c' : SConf), (∀ x ∈ ts, x ∈ T) → confLoop env eof n ts c = some c' → KeyFrame has c c' := by
  intro n
  induction n with
  | zero => intro ts c c' _ h; rw [confLoop] at h; cases h
  | succ n ih =>
    intro ts c c' hs h
    cases ts with
    | nil => rw [confLoop] at h; cases h; exact KeyFrame.refl _ c
    | cons t ts =>
      rw [confLoop] at h
      split at h
      · cases h; exact KeyFrame.refl _ c
      · rw [Option.bind_eq_some_iff] at h
        obtain ⟨r, hr, h⟩ := h
        obtain ⟨h1, h2⟩ := directive_keys hT env he (hs t (by simp)) (fun x hx => hs x (by simp [hx])) hr
        exact h1.trans (ih _ _ _ h2.2 h)

/-- The words of the keywords. -/
def keyWord : Conman.Key → List UInt8
  | .console => bs "CONSOLE"
  | .coredump => bs "COREDUMP"
  | .coredumpdir => bs "COREDUMPDIR"
  | .dev => bs "DEV"
  | .execpath => bs "EXECPATH"
  | .global => bs "GLOBAL"
  | .ipmiopts => bs "IPMIOPTS"
  | .keepalive => bs "KEEPALIVE"
  | .log => bs "LOG"
  | .logdir => bs "LOGDIR"
  | .logfile => bs "LOGFILE"
  | .logopts => bs "LOGOPTS"
  | .loopback => bs "LOOPBACK"
  | .name => bs "NAME"
  | .nofile => bs "NOFILE"
  | .off => bs "OFF"
  | .on => bs "ON"
  | .pidfile => bs "PIDFILE"
  | .port => bs "PORT"
  | .resetcmd => bs "RESETCMD"
  | .seropts => bs "SEROPTS"
  | .server => bs "SERVER"
  | .syslog => bs "SYSLOG"
  | .tcpwrappers => bs "TCPWRAPPERS"
  | .testopts => bs "TESTOPTS"
  | .timestamp => bs "TIMESTAMP"

theorem confKeys_word (ipmi : Bool) (i : Nat) (k : Conman.Key) (h : (confKeys ipmi)[i]? = some k) : (serverConfStrs ipmi)[i]? = some (keyWord k) := by
  have all : ∀ ipmi, (confKeys ipmi).map keyWord = serverConfStrs ipmi := by intro ipmi; cases ipmi <;> decide +kernel
  rw [← all, List.getElem?_map, h]
  rfl

/-- Keywords among the tokens are words of the text. -/
theorem lexes_word {keys : List (List UInt8)} {before s : List UInt8} {ts : List (Token × List UInt8 × Nat)} (h : Lexes keys before s ts) :
    ∀ (x : Token × List UInt8 × Nat) (i : Nat), x ∈ ts → x.1 = .key i → ∃ k, keys[i]? = some k ∧ occursIn k s := by
  induction h with
  | done before a ha => intro x i hx e; rw [List.mem_singleton] at hx; rw [hx] at e; cases e
  | step before a b r text t ts ha hb h0 hr ih =>
    intro x i hx e
    rcases List.mem_cons.1 hx with g | g
    · rw [g] at e
      dsimp only at e
      rw [e] at hb
      cases hb with
      | keyword c w r hc hw hr i k hi hk => exact ⟨k, hi, a, _, r, rfl, hk⟩
    · obtain ⟨k, h1, a', v, b', h2, h3⟩ := ih x i g e
      exact ⟨k, h1, a ++ b ++ a', v, b', by rw [h2]; simp, h3⟩

theorem code_key {t : Token} {i : Nat} (h : t.code = 259 + i) : t = .key i := by
  cases t with
  | key j => simp only [Token.code] at h; congr 1; omega
  | chr c =>
    simp only [Token.code] at h
    have := c.toNat_lt
    split at h <;> omega
  | _ => simp only [Token.code] at h; omega

theorem cfKind_key {ipmi : Bool} {code : Int} {k : Conman.Key} (h : cfKind ipmi code = .key k) : 259 ≤ code ∧ (confKeys ipmi)[(code - 259).toNat]? = some k := by
  unfold cfKind at h
  by_cases h1 : code = lexEof
  · rw [if_pos h1] at h; cases h
  rw [if_neg h1] at h
  by_cases h2 : code = lexEol
  · rw [if_pos h2] at h; cases h
  rw [if_neg h2] at h
  by_cases h3 : code = lexErr
  · rw [if_pos h3] at h; cases h
  rw [if_neg h3] at h
  by_cases h4 : code = lexInt
  · rw [if_pos h4] at h; cases h
  rw [if_neg h4] at h
  by_cases h5 : code = lexStr
  · rw [if_pos h5] at h; cases h
  rw [if_neg h5] at h
  by_cases h6 : code = 0x3D
  · rw [if_pos h6] at h; cases h
  rw [if_neg h6] at h
  by_cases h7 : code < lexTokOffset
  · rw [if_pos h7] at h; cases h
  rw [if_neg h7] at h
  have h8 : 259 ≤ code := by unfold lexTokOffset at h7; omega
  refine ⟨h8, ?_⟩
  unfold lexTokOffset at h
  generalize (confKeys ipmi)[(code - 259).toNat]? = z at h
  cases z with
  | none => cases h
  | some k' => cases h; rfl

/-- **Settings only change by their keywords**, for every text. -/
theorem processConfig_keys (env : CEnv) (s : List UInt8) (c c' : SConf) (h : processConfig env s c = some c') :
    ∃ c1, KeyFrame (fun k => occursIn (keyWord k) s) c c1 ∧ c' = defaultPort c1 := by
  have hz : (0 : UInt8) ∉ s.takeWhile (· ≠ 0) := by
    intro g
    have := List.all_takeWhile (p := fun x : UInt8 => decide (x ≠ 0)) (l := s)
    rw [List.all_eq_true] at this
    simpa using this 0 g
  obtain ⟨junk, hj⟩ : ∃ junk, s ++ [0] = s.takeWhile (· ≠ 0) ++ 0 :: junk := by
    have e : s.takeWhile (· ≠ 0) ++ s.dropWhile (· ≠ 0) = s := List.takeWhile_append_dropWhile
    cases hd : s.dropWhile (· ≠ 0) with
    | nil => rw [hd, List.append_nil] at e; exact ⟨[], by rw [e]⟩
    | cons x r =>
      have hx := List.head?_dropWhile_not (fun x : UInt8 => decide (x ≠ 0)) s
      rw [hd] at hx
      have hx : x = 0 := by simpa using hx
      refine ⟨r ++ [0], ?_⟩
      rw [hd, hx] at e
      calc s ++ [0] = (s.takeWhile (· ≠ 0) ++ 0 :: r) ++ [0] := by rw [e]
        _ = _ := by simp
  have hl : (s.takeWhile (· ≠ 0)).length ≤ s.length := List.Sublist.length_le (List.takeWhile_sublist _)
  obtain ⟨ts, h1, h2, _⟩ := lexAll_spec (C17_tables.2 env.withIpmi) junk (s.length + 1) (lexCreate (s ++ [0])) [] (s.takeWhile (· ≠ 0)) (by omega) hj hz (by simp [lexCreate, newlines]) (by simp [Seam])
  unfold processConfig at h
  rw [h2, Option.bind_some] at h
  dsimp only at h
  rw [List.map_map] at h
  generalize hcs : ts.map (_ ∘ entry) = cs at h
  split at h
  · cases h
  · rename_i e he
    rw [Option.map_eq_some_iff] at h
    obtain ⟨c1, h3, rfl⟩ := h
    refine ⟨c1, ?_, rfl⟩
    refine confLoop_keys (T := cs) ?_ env (List.mem_of_getLast? he) _ _ _ _ (fun x hx => List.dropLast_subset _ hx) h3
    intro t ht k hk
    rw [← hcs] at ht
    obtain ⟨x, hx, rfl⟩ := List.mem_map.1 ht
    obtain ⟨hge, hk'⟩ := cfKind_key (show cfKind env.withIpmi x.1.code = .key k from hk)
    · have e2 : x.1 = .key (x.1.code - 259).toNat := code_key (by omega)
      obtain ⟨k2, g1, a, v, b, g2, g3⟩ := lexes_word h1 x _ hx e2
      rw [confKeys_word _ _ _ hk'] at g1
      cases g1
      have e3 : s = s.takeWhile (· ≠ 0) ++ s.dropWhile (· ≠ 0) := List.takeWhile_append_dropWhile.symm
      exact ⟨a, v, b ++ s.dropWhile (· ≠ 0), by rw [← List.append_assoc, ← g2]; exact e3, g3⟩

end Conman
