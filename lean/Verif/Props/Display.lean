import Verif.Model.Display
import Verif.Model.Syslog
import Verif.Props.ServerArgs
import Verif.Props.Conf
import Verif.Lemma.Dec

/-
C108: what the daemon displays with `-v` is what it does.
-/
namespace Conman
open Spec

/-- The options displayed are those that are set: each of them exactly then. -/
structure Spec.TellsOptions (ws : List (List UInt8)) (a : DArgs) (c : SConf) : Prop where
  coreDump : bs "CoreDump" ∈ ws ↔ c.coreDump = true
  keepAlive : bs "KeepAlive" ∈ ws ↔ c.keepAlive = true
  logFile : bs "LogFile" ∈ ws ↔ c.logFile ≠ none
  loopBack : bs "LoopBack" ∈ ws ↔ (listenOn c).1 = [127, 0, 0, 1]
  resetCmd : bs "ResetCmd" ∈ ws ↔ c.resetCmd ≠ none
  syslog : bs "SysLog" ∈ ws ↔ 0 ≤ c.syslog
  tcpWrap : bs "TCP-Wrappers" ∈ ws ↔ c.tcpWrap = true
  stamp : ∀ n : Int, (bs "TimeStamp=" ++ decInt n ++ bs "m" ∈ ws ↔ 0 < n ∧ c.stamp = n)
  zero : bs "ZeroLogs" ∈ ws ↔ a.zero = true
  nothing : bs "None" ∈ ws ↔ c.coreDump = false ∧ c.keepAlive = false ∧ c.logFile = none ∧ c.loopBack = false ∧ c.resetCmd = none ∧ c.syslog < 0 ∧ c.tcpWrap = false ∧
    c.stamp ≤ 0 ∧ a.zero = false

theorem stampWord_inj {m n : Int} (hm : 0 ≤ m) (h : bs "TimeStamp=" ++ decInt m ++ bs "m" = bs "TimeStamp=" ++ decInt n ++ bs "m") : m = n := by
  have h := List.append_cancel_left (List.append_cancel_right h)
  unfold decInt at h
  rw [if_neg (by omega)] at h
  by_cases hn : n < 0
  · rw [if_pos hn] at h
    have hd := (dec_spec m.natAbs).2.1
    rw [h] at hd
    have := hd 0x2d (by simp)
    exact absurd this (by unfold digit; decide)
  · rw [if_neg hn] at h
    have := congrArg digitsVal h
    rw [(dec_spec _).2.2.1, (dec_spec _).2.2.1] at this
    omega

theorem stampWord_ne (n : Int) (w : List UInt8) (h : w.take 10 ≠ bs "TimeStamp=") : bs "TimeStamp=" ++ decInt n ++ bs "m" ≠ w := by
  rintro rfl
  apply h
  rw [List.append_assoc, List.take_append_of_le_length (by decide)]
  decide

/-- A word is displayed. -/
theorem optionWords_mem (a : DArgs) (c : SConf) (w : List UInt8) : w ∈ optionWords a c ↔
    (c.coreDump = true ∧ w = bs "CoreDump") ∨ (c.keepAlive = true ∧ w = bs "KeepAlive") ∨ (c.logFile.isSome = true ∧ w = bs "LogFile") ∨
    (c.loopBack = true ∧ w = bs "LoopBack") ∨ (c.resetCmd.isSome = true ∧ w = bs "ResetCmd") ∨ (c.syslog ≥ 0 ∧ w = bs "SysLog") ∨
    (c.tcpWrap = true ∧ w = bs "TCP-Wrappers") ∨ (c.stamp > 0 ∧ w = bs "TimeStamp=" ++ decInt c.stamp ++ bs "m") ∨ (a.zero = true ∧ w = bs "ZeroLogs") ∨
    ((c.coreDump = false ∧ c.keepAlive = false ∧ c.logFile = none ∧ c.loopBack = false ∧ c.resetCmd = none ∧ c.syslog < 0 ∧ c.tcpWrap = false ∧
    c.stamp ≤ 0 ∧ a.zero = false) ∧ w = bs "None") := by
  have e1 : ∀ (p : Prop) [Decidable p] (v : List UInt8), w ∈ (if p then [v] else []) ↔ p ∧ w = v := by
    intro p _ v; by_cases h : p <;> simp [h]
  have e2 : ∀ (p : Prop) [Decidable p] (v : List UInt8), (if p then [v] else []) = [] ↔ ¬ p := by
    intro p _ v; by_cases h : p <;> simp [h]
  unfold optionWords
  dsimp only
  generalize hl : (if c.coreDump then [bs "CoreDump"] else []) ++ (if c.keepAlive then [bs "KeepAlive"] else []) ++ (if c.logFile.isSome then [bs "LogFile"] else []) ++
    (if c.loopBack then [bs "LoopBack"] else []) ++ (if c.resetCmd.isSome then [bs "ResetCmd"] else []) ++ (if c.syslog ≥ 0 then [bs "SysLog"] else []) ++
    (if c.tcpWrap then [bs "TCP-Wrappers"] else []) ++ (if c.stamp > 0 then [bs "TimeStamp=" ++ decInt c.stamp ++ bs "m"] else []) ++
    (if a.zero then [bs "ZeroLogs"] else []) = l
  have hn : l = [] ↔ (c.coreDump = false ∧ c.keepAlive = false ∧ c.logFile = none ∧ c.loopBack = false ∧ c.resetCmd = none ∧ c.syslog < 0 ∧ c.tcpWrap = false ∧
    c.stamp ≤ 0 ∧ a.zero = false) := by
    rw [← hl]
    simp only [List.append_eq_nil_iff, e2, Bool.not_eq_true, Option.isSome_eq_false_iff, Option.isNone_iff_eq_none, and_assoc, ge_iff_le, gt_iff_lt, Int.not_le, Int.not_lt]
  by_cases hc : l = []
  · rw [if_pos hc]
    obtain ⟨h1, h2, h3, h4, h5, h6, h7, h8, h9⟩ := hn.mp hc
    simp [h1, h2, h3, h4, h5, h7, h9, show ¬ 0 ≤ c.syslog by omega, show ¬ 0 < c.stamp by omega, h6, h8]
  · rw [if_neg hc, ← hn]
    simp only [hc, false_and, or_false]
    rw [← hl]
    simp only [List.mem_append, e1, or_assoc]

theorem optionWords_tells (a : DArgs) (c : SConf) : TellsOptions (optionWords a c) a c := by
  have hs : ∀ w : List UInt8, w.take 10 ≠ bs "TimeStamp=" → (w = bs "TimeStamp=" ++ decInt c.stamp ++ bs "m") = False :=
    fun w hw => eq_false fun h => stampWord_ne c.stamp w hw h.symm
  have hlb : (listenOn c).1 = [127, 0, 0, 1] ↔ c.loopBack = true := by
    unfold listenOn
    cases c.loopBack <;> simp
  constructor
  all_goals first
    | (rw [optionWords_mem]
       try rw [hlb]
       rw [hs _ (by decide)]
       simp (decide := true) [Option.isSome_iff_ne_none])
    | skip
  intro n
  rw [optionWords_mem]
  have hw := fun w hw => eq_false (stampWord_ne n w hw)
  rw [hw (bs "CoreDump") (by decide), hw (bs "KeepAlive") (by decide), hw (bs "LogFile") (by decide), hw (bs "LoopBack") (by decide), hw (bs "ResetCmd") (by decide),
    hw (bs "SysLog") (by decide), hw (bs "TCP-Wrappers") (by decide), hw (bs "ZeroLogs") (by decide), hw (bs "None") (by decide)]
  simp only [and_false, false_or, or_false]
  constructor
  · rintro ⟨h0, h⟩
    have := stampWord_inj (Int.le_of_lt h0) h.symm
    exact ⟨by omega, this⟩
  · rintro ⟨h0, rfl⟩
    exact ⟨h0, rfl⟩

/-- Texts that end at the first byte of a kind. -/
theorem cut_inj (b : UInt8) : ∀ {x y r s : List UInt8}, b ∉ x → b ∉ y → x ++ b :: r = y ++ b :: s → x = y ∧ r = s := by
  intro x
  induction x with
  | nil =>
    intro y r s _ hy h
    cases y with
    | nil => exact ⟨rfl, by simpa using h⟩
    | cons c y =>
      simp only [List.nil_append, List.cons_append, List.cons.injEq] at h
      exact absurd (h.1 ▸ List.mem_cons_self) hy
  | cons a x ih =>
    intro y r s hx hy h
    cases y with
    | nil =>
      simp only [List.nil_append, List.cons_append, List.cons.injEq] at h
      exact absurd (h.1 ▸ List.mem_cons_self) hx
    | cons c y =>
      simp only [List.cons_append, List.cons.injEq] at h
      obtain ⟨h1, h2⟩ := ih (fun hc => hx (List.mem_cons_of_mem _ hc)) (fun hc => hy (List.mem_cons_of_mem _ hc)) h.2
      exact ⟨by rw [h.1, h1], h2⟩

/-- Words behind a space each. -/
theorem spaced_inj : ∀ {u v : List (List UInt8)}, (∀ w ∈ u, 0x20 ∉ w) → (∀ w ∈ v, 0x20 ∉ w) → u.flatMap (fun w => bs " " ++ w) = v.flatMap (fun w => bs " " ++ w) →
    u = v := by
  have hsp : bs " " = [0x20] := by decide
  have key : ∀ {u v : List (List UInt8)}, (∀ w ∈ u, 0x20 ∉ w) → (∀ w ∈ v, 0x20 ∉ w) → u.flatMap (fun w => bs " " ++ w) ++ bs " " = v.flatMap (fun w => bs " " ++ w) ++ bs " " →
      u = v := by
    rw [hsp]
    intro u
    induction u with
    | nil =>
      intro v _ hv h
      cases v with
      | nil => rfl
      | cons b v => have := congrArg List.length h; simp at this
    | cons a u ih =>
      intro v hu hv h
      cases v with
      | nil => have := congrArg List.length h; simp at this
      | cons b v =>
        have sh : ∀ t : List (List UInt8), ∃ r, t.flatMap (fun w => [0x20] ++ w) ++ [0x20] = 0x20 :: r := by
          intro t
          cases t with
          | nil => exact ⟨[], rfl⟩
          | cons x t => exact ⟨_, rfl⟩
        obtain ⟨r, hr⟩ := sh u
        obtain ⟨s, hs⟩ := sh v
        simp only [List.flatMap_cons, List.append_assoc, List.cons_append, List.nil_append, List.cons.injEq, true_and] at h
        simp only [List.cons_append, List.nil_append] at hr hs ih
        rw [hr, hs] at h
        obtain ⟨h1, h2⟩ := cut_inj 0x20 (hu a (by simp)) (hv b (by simp)) h
        have h3 := ih (v := v) (fun w hw => hu w (List.mem_cons_of_mem _ hw)) (fun w hw => hv w (List.mem_cons_of_mem _ hw)) ((hr.trans (by rw [h2])).trans hs.symm)
        rw [h1, h3]
  intro u v hu hv h
  exact key hu hv (by rw [h])

theorem dec_no (n : Nat) (b : UInt8) (h : ¬ digit b) : b ∉ dec n := fun hb => h ((dec_spec n).2.1 b hb)

theorem optionWords_clean (a : DArgs) (c : SConf) (b : UInt8) (hb : b = 0x20 ∨ b = 0x0a) : ∀ w ∈ optionWords a c, b ∉ w := by
  intro w hw
  rw [optionWords_mem] at hw
  have hd : 0 < c.stamp → b ∉ bs "TimeStamp=" ++ decInt c.stamp ++ bs "m" := by
    intro h0 hm
    unfold decInt at hm
    rw [if_neg (by omega)] at hm
    rcases hb with rfl | rfl
    · rcases List.mem_append.mp hm with hm | hm
      · rcases List.mem_append.mp hm with hm | hm
        · exact absurd hm (by decide)
        · exact dec_no _ _ (by unfold digit; decide) hm
      · exact absurd hm (by decide)
    · rcases List.mem_append.mp hm with hm | hm
      · rcases List.mem_append.mp hm with hm | hm
        · exact absurd hm (by decide)
        · exact dec_no _ _ (by unfold digit; decide) hm
      · exact absurd hm (by decide)
  rcases hw with ⟨_, rfl⟩ | ⟨_, rfl⟩ | ⟨_, rfl⟩ | ⟨_, rfl⟩ | ⟨_, rfl⟩ | ⟨_, rfl⟩ | ⟨_, rfl⟩ | ⟨h0, rfl⟩ | ⟨_, rfl⟩ | ⟨_, rfl⟩
  case inr.inr.inr.inr.inr.inr.inr.inl => exact hd h0
  all_goals (rcases hb with rfl | rfl <;> decide)

/-- C108. What is displayed: the name of the configuration, words, and the number of consoles. The words are the options that are set, each of them exactly then (for the
address the daemon listens on: that of the loopback). -/
theorem C108_display (a : DArgs) (c : SConf) : ∃ ws, TellsOptions ws a c ∧ ws ≠ [] ∧
    displayConf a c = bs "Configuration: " ++ a.conf ++ bs "\nOptions:" ++ ws.flatMap (fun w => bs " " ++ w) ++ bs "\nMonitoring " ++ dec c.consoles.length ++
      (if c.consoles.length = 1 then bs " console\n\n" else bs " consoles\n\n") := by
  refine ⟨optionWords a c, optionWords_tells a c, ?_, rfl⟩
  have key : ∀ l : List (List UInt8), (if l = [] then [bs "None"] else l) ≠ [] := by
    intro l
    by_cases h : l = []
    · rw [if_pos h]; simp
    · rw [if_neg h]; exact h
  exact key _

/-- C108. What is displayed tells the configurations apart: those displayed alike have the same name, the same options (and the same interval between timestamps), and the
same number of consoles. -/
theorem C108_apart {a a' : DArgs} {c c' : SConf} (ha : 0x0a ∉ a.conf) (ha' : 0x0a ∉ a'.conf) (h : displayConf a c = displayConf a' c') :
    a.conf = a'.conf ∧ c.consoles.length = c'.consoles.length ∧ a.zero = a'.zero ∧ c.coreDump = c'.coreDump ∧ c.keepAlive = c'.keepAlive ∧
    (c.logFile = none ↔ c'.logFile = none) ∧ c.loopBack = c'.loopBack ∧ (c.resetCmd = none ↔ c'.resetCmd = none) ∧ (0 ≤ c.syslog ↔ 0 ≤ c'.syslog) ∧ c.tcpWrap = c'.tcpWrap ∧
    (c.stamp = c'.stamp ∨ (c.stamp ≤ 0 ∧ c'.stamp ≤ 0)) := by
  have e1 : bs "\nOptions:" = 0x0a :: bs "Options:" := by decide
  have e2 : bs "\nMonitoring " = 0x0a :: bs "Monitoring " := by decide
  have e3 : ∀ n : Nat, ∃ r, (if n = 1 then bs " console\n\n" else bs " consoles\n\n") = 0x20 :: r := by
    intro n
    by_cases hn : n = 1
    · exact ⟨bs "console\n\n", by rw [if_pos hn]; decide⟩
    · exact ⟨bs "consoles\n\n", by rw [if_neg hn]; decide⟩
  obtain ⟨r, hr⟩ := e3 c.consoles.length
  obtain ⟨r', hr'⟩ := e3 c'.consoles.length
  unfold displayConf at h
  rw [hr, hr', e1, e2] at h
  simp only [List.append_assoc, List.cons_append] at h
  obtain ⟨h1, h⟩ := cut_inj 0x0a ha ha' (List.append_cancel_left h)
  have hf : ∀ a c, 0x0a ∉ (optionWords a c).flatMap (fun w => bs " " ++ w) := by
    intro a c hm
    obtain ⟨w, hw, hm⟩ := List.mem_flatMap.mp hm
    rcases List.mem_append.mp hm with hm | hm
    · exact absurd hm (by decide)
    · exact optionWords_clean a c 0x0a (.inr rfl) w hw hm
  obtain ⟨h2, h⟩ := cut_inj 0x0a (hf a c) (hf a' c') (List.append_cancel_left h)
  have h2 := spaced_inj (optionWords_clean a c _ (.inl rfl)) (optionWords_clean a' c' _ (.inl rfl)) h2
  obtain ⟨h3, _⟩ := cut_inj 0x20 (dec_no _ _ (by unfold digit; decide)) (dec_no _ _ (by unfold digit; decide)) (List.append_cancel_left h)
  have h3 := congrArg digitsVal h3
  rw [(dec_spec _).2.2.1, (dec_spec _).2.2.1] at h3
  have t := optionWords_tells a c
  have t' := optionWords_tells a' c'
  rw [← h2] at t'
  have hlb : ∀ c : SConf, (listenOn c).1 = [127, 0, 0, 1] ↔ c.loopBack = true := by
    intro c
    unfold listenOn
    cases c.loopBack <;> simp
  refine ⟨h1, h3, ?_, ?_, ?_, ?_, ?_, ?_, t.syslog.symm.trans t'.syslog, ?_, ?_⟩
  · exact Bool.eq_iff_iff.mpr (t.zero.symm.trans t'.zero)
  · exact Bool.eq_iff_iff.mpr (t.coreDump.symm.trans t'.coreDump)
  · exact Bool.eq_iff_iff.mpr (t.keepAlive.symm.trans t'.keepAlive)
  · exact Decidable.not_iff_not.mp (t.logFile.symm.trans t'.logFile)
  · exact Bool.eq_iff_iff.mpr ((hlb c).symm.trans ((t.loopBack.symm.trans t'.loopBack).trans (hlb c')))
  · exact Decidable.not_iff_not.mp (t.resetCmd.symm.trans t'.resetCmd)
  · exact Bool.eq_iff_iff.mpr (t.tcpWrap.symm.trans t'.tcpWrap)
  · by_cases h0 : 0 < c.stamp
    · exact .inl ((t'.stamp _).mp ((t.stamp _).mpr ⟨h0, rfl⟩)).2.symm
    · by_cases h0' : 0 < c'.stamp
      · exact .inl ((t.stamp _).mp ((t'.stamp _).mpr ⟨h0', rfl⟩)).2
      · exact .inr ⟨by omega, by omega⟩

/-! ### Where messages go

Full statement: "LogFile" is displayed if messages go to the log file, "SysLog" if they go to the system log, and not otherwise. It does not hold in the foreground
(`C108_foreground`), nor for the facility `kern` (`C108_kern`). -/

/-- C108. In the background, and for any facility but `kern`, it is displayed where messages go. -/
theorem C108_targets_partial (a : DArgs) (c : SConf) (hf : a.foreground = false) (hk : c.syslog ≠ 0) : ∃ ws, TellsOptions ws a c ∧
    (bs "SysLog" ∈ ws ↔ (logTargets a c).1 = true) ∧ (bs "LogFile" ∈ ws ↔ (logTargets a c).2 = true) ∧
    ((logTargets a c).1 = true ↔ syslogUsed c.syslog = true) := by
  have t := optionWords_tells a c
  refine ⟨_, t, ?_, ?_, ?_⟩
  · rw [t.syslog]
    simp only [logTargets, hf, Bool.not_false, Bool.true_and, decide_eq_true_eq]
    omega
  · rw [t.logFile]
    simp only [logTargets, hf, Bool.not_false, Bool.true_and, Option.isSome_iff_ne_none]
  · simp only [logTargets, hf, Bool.not_false, Bool.true_and, syslogUsed]

/-- What is displayed, and where messages go, for a configuration and options. -/
def showDemo (s : String) (fg : Bool) : Option (List UInt8 × Bool × Bool) :=
  (readDemo s).map fun c => (displayConf { conf := bs "/etc/conman.conf", foreground := fg } c, logTargets { conf := bs "/etc/conman.conf", foreground := fg } c)

/-- C108. In the foreground "LogFile" and "SysLog" are displayed although messages go to neither. -/
theorem C108_foreground : showDemo "SERVER logfile='/tmp/l'\nSERVER syslog=local0\nCONSOLE name=x dev='/dev/ttyS0'\n" true =
      some (bs "Configuration: /etc/conman.conf\nOptions: KeepAlive LogFile LoopBack SysLog\nMonitoring 1 console\n\n", false, false) ∧
    showDemo "SERVER logfile='/tmp/l'\nSERVER syslog=local0\nCONSOLE name=x dev='/dev/ttyS0'\n" false =
      some (bs "Configuration: /etc/conman.conf\nOptions: KeepAlive LogFile LoopBack SysLog\nMonitoring 1 console\n\n", true, true) :=
  ⟨by decide +kernel, by decide +kernel⟩

/-- C108. "SysLog" is displayed for the facility `kern` although messages do not go there. -/
theorem C108_kern : showDemo "SERVER syslog=kern\nSERVER keepalive=off\nSERVER loopback=off\nSERVER timestamp=90m\nCONSOLE name=x dev='/dev/ttyS0'\nCONSOLE name=y dev='/dev/ttyS1'\n" false =
      some (bs "Configuration: /etc/conman.conf\nOptions: SysLog TimeStamp=90m\nMonitoring 2 consoles\n\n", false, false) := by decide +kernel

example : showDemo "SERVER keepalive=off\nSERVER loopback=off\nCONSOLE name=x dev='/dev/ttyS0'\n" false = some (bs "Configuration: /etc/conman.conf\nOptions: None\nMonitoring 1 console\n\n", false, false) := by
  decide +kernel

end Conman
