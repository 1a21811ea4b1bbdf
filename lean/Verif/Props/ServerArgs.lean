import Verif.Lemma.ServerArgs
import Verif.Lemma.ConfKeys
import Verif.Props.Conf
import Verif.Props.Locks

/-
The daemon does what its command line says.  (C87)
-/
namespace Conman
open Spec

/-! ### Words -/

/-- C87. Options are found as `DWords` says, or else there is an option that does not exist or lacks its argument. -/
theorem C87_words (args : List (List UInt8)) :
    (∀ os ps, gGetopt dFlags dArgs args = ⟨os, ps, none⟩ ↔ DWords args os ps) ∧
    (∀ os c, ((gGetopt dFlags dArgs args).opts = os ∧ (gGetopt dFlags dArgs args).bad = some c) ↔ DBad args os c) := by
  refine ⟨fun os ps => ⟨fun h => ?_, gGetopt_complete dTab⟩, fun os c => ⟨fun h => ?_, gGetopt_bad dTab⟩⟩
  · rcases gGetopt_sound dTab _ args (Nat.le_refl _) with ⟨_, g⟩ | ⟨c, g, _⟩
    · rw [h] at g; exact g
    · rw [h] at g; cases g
  · rcases gGetopt_sound dTab _ args (Nat.le_refl _) with ⟨g, _⟩ | ⟨c', g1, g2⟩
    · rw [h.2] at g; cases g
    · rw [h.2] at g1; cases g1
      rw [h.1] at g2; exact g2

example : DWords [bs "-Fc", bs "x.conf", bs "left", bs "-p7891", bs "--", bs "-k"] [.flag 0x46, .arg 0x63 (bs "x.conf"), .arg 0x70 (bs "7891")] [bs "left", bs "-k"] :=
  .separate [0x46] 0x63 (bs "x.conf") _ _ _ (by decide) (by decide) (.operand _ _ _ _ (by decide) (.attached [] 0x70 (bs "7891") _ _ _ (by decide) (by decide) (by decide) (.stop _)))
example : DBad [bs "-q", bs "-vm"] [.flag 0x71, .flag 0x76] 0x6D :=
  .flags [0x71] _ _ _ (by decide) (by decide) (.unknown [0x76] 0x6D [] [] (by decide) (by decide) (by decide) (by decide))
example : DBad [bs "-c"] [] 0x63 := .missing [] 0x63 (by decide) (by decide)

theorem words_opts {args : List (List UInt8)} {os ps} (h : DWords args os ps) : gGetopt (bs "FhkLqrvVz") (bs "cpP") args = ⟨os, ps, none⟩ := gGetopt_complete dTab h

theorem daemonArgs_go {E : DProg} {args : List (List UInt8)} {os ps} (hw : DWords args os ps) (hg : DGo os) : daemonArgs E args = some (.go (daemonSet E { conf := E.conf } os)) := by
  unfold daemonArgs
  rw [words_opts hw]
  rw [daemonOpts_go E _ os (goOpts_of hg (gWords_ok hw))]
  rfl

/-- What the settings of the command line have to be. -/
structure ArgsOf (E : DProg) (os : List COpt) (a : DArgs) : Prop where
  conf : a.conf = lastOr E.conf (argsOf 0x63 os)
  noPort : argsOf 0x70 os = [] → a.port = -1
  port : ∀ v z, (argsOf 0x70 os).getLast? = some v → LeadNum v z → a.port = z
  pidFile : a.pidFile = (argsOf 0x50 os).getLast?.map (inDir E.cwd)
  signal : a.signal = (lastFlag (bs "kqr") os).map dSignal
  foreground : a.foreground = true ↔ .flag 0x46 ∈ os
  verbose : a.verbose = true ↔ .flag 0x76 ∈ os
  zero : a.zero = true ↔ .flag 0x7A ∈ os

theorem filterMap_last {v : List UInt8} {l : List (List UInt8)} {z : Int} (h : l.getLast? = some v) (hz : atoi v = some z) : (l.filterMap atoi).getLast? = some z := by
  obtain ⟨r, rfl⟩ : ∃ r, l = r ++ [v] := by
    obtain ⟨r, e⟩ := List.getLast?_eq_some_iff.1 h
    exact ⟨r, e⟩
  rw [List.filterMap_append, List.filterMap_cons, hz]
  simp

theorem daemonSet_args {E : DProg} {os : List COpt} (hg : DGo os) (hf : ∀ v ∈ argsOf 0x50 os, Fits1 E.cwd v) : ArgsOf E os (daemonSet E { conf := E.conf } os) where
  conf := rfl
  noPort := by intro h; unfold daemonSet; simp only [h]; rfl
  port := by
    intro v z h hz
    obtain ⟨z', h1, h2, h3⟩ := hg.2 v (List.mem_of_getLast? h)
    have e : z' = z := by rw [leadNum_val h1, leadNum_val hz]
    subst e
    unfold daemonSet
    simp only [lastOr, filterMap_last h (atoi_lead h1 (by omega) h3)]
    rfl
  pidFile := by
    unfold daemonSet
    dsimp only [lastOr]
    rw [List.getLast?_map]
    cases h : (argsOf 0x50 os).getLast? with
    | none => rfl
    | some v => rw [Option.map_some, Option.map_some, Option.getD_some, relName_fits (hf v (List.mem_of_getLast? h))]
  signal := by
    unfold daemonSet
    dsimp only
    cases lastFlag (bs "kqr") os <;> rfl
  foreground := by unfold daemonSet; simp
  verbose := by unfold daemonSet; simp
  zero := by unfold daemonSet; simp

/- Full statement of C87: every command line has a meaning, and the daemon acts on it.  It does not hold for ports that do not fit an `int` (undefined), pid files in the working directory
with names longer than 1023 bytes (C87_long_pidfile), ports larger than 65535 (C87_port_cut), texts that are no numbers (C87_port_text), and the pid file of a configuration
(C87_pidfile_ignored). -/

/-- C87. The settings are those of the last of the options. -/
theorem C87_args_partial (E : DProg) (args : List (List UInt8)) (os : List COpt) (ps : List (List UInt8)) (hw : DWords args os ps) (hg : DGo os)
    (hf : ∀ v ∈ argsOf 0x50 os, Fits1 E.cwd v) : ∃ a, daemonArgs E args = some (.go a) ∧ ArgsOf E os a :=
  ⟨_, daemonArgs_go hw hg, daemonSet_args hg hf⟩

def progDemo : DProg := ⟨bs "conmand", bs "/etc/conman.conf", bs "license\n", bs "conman-0.3.1\n", bs "/root"⟩

example : (daemonArgs progDemo [bs "-vFPx.pid", bs "-p", bs " 0080 ", bs "-rk"]) =
    some (.go { conf := bs "/etc/conman.conf", port := 80, pidFile := some (bs "/root/x.pid"), signal := some 15, foreground := true, verbose := true }) := by decide +kernel

example : DGo [.flag 0x76, .arg 0x50 (bs "x.pid"), .arg 0x70 (bs " 0080 ")] :=
  ⟨by decide, fun v hv => by
    rw [show argsOf 0x70 [.flag 0x76, .arg 0x50 (bs "x.pid"), .arg 0x70 (bs " 0080 ")] = [bs " 0080 "] by decide, List.mem_singleton] at hv
    subst hv
    exact ⟨80, (leadNum_iff _ _).2 (by decide), by decide, by decide⟩⟩

/-- C87. An option that prints something does so, whatever follows it, even if that is no option; nothing else happens. -/
theorem C87_exits (E : DProg) (ini : IpmiOpt) (W : DWorld) (args : List (List UInt8)) (pre post : List COpt) (x : UInt8) (hx : x ∈ dPrint)
    (hw : (∃ ps, DWords args (pre ++ .flag x :: post) ps) ∨ ∃ c, DBad args (pre ++ .flag x :: post) c) (hg : DGo pre) :
    daemonMain E ini W args = some (.exit (if x = 0x68 then serverHelp E else if x = 0x4C then E.license else E.version)) := by
  have ok : ∀ o ∈ pre, match o with | .flag c => c ∈ dFlags | .arg c _ => c ∈ dArgs := by
    intro o ho
    rcases hw with ⟨ps, h⟩ | ⟨c, h⟩
    · exact gWords_ok h o (by simp [ho])
    · exact gBad_ok h o (by simp [ho])
  have ho : (gGetopt (bs "FhkLqrvVz") (bs "cpP") args).opts = pre ++ .flag x :: post := by
    rcases hw with ⟨ps, h⟩ | ⟨c, h⟩
    · rw [words_opts h]
    · exact (gGetopt_bad dTab h).1
  have hx : x = 0x68 ∨ x = 0x4C ∨ x = 0x56 := by
    have : ∀ x ∈ dPrint, x = 0x68 ∨ x = 0x4C ∨ x = 0x56 := by decide
    exact this x hx
  unfold daemonMain daemonArgs
  rw [ho, daemonOpts_app E pre _ _ (goOpts_of hg ok)]
  rcases hx with rfl | rfl | rfl <;> rfl

/-- C87. An option that does not exist, or lacks its argument, is refused. -/
theorem C87_refused (E : DProg) (ini : IpmiOpt) (W : DWorld) (args : List (List UInt8)) (os : List COpt) (c : UInt8) (hw : DBad args os c) (hg : DGo os) :
    daemonMain E ini W args = some (.err (bs "CMDLINE: invalid option \"" ++ [c] ++ bs "\"")) := by
  obtain ⟨e1, e2⟩ := gGetopt_bad dTab hw
  unfold daemonMain daemonArgs
  rw [show (gGetopt (bs "FhkLqrvVz") (bs "cpP") args).opts = os from e1, show (gGetopt (bs "FhkLqrvVz") (bs "cpP") args).bad = some c from e2,
    daemonOpts_go E _ os (goOpts_of hg (gBad_ok hw))]
  rfl

/-- C87. A port that is negative is refused. -/
theorem C87_bad_port (E : DProg) (ini : IpmiOpt) (W : DWorld) (args : List (List UInt8)) (pre post : List COpt) (v : List UInt8) (z : Int)
    (hw : (∃ ps, DWords args (pre ++ .arg 0x70 v :: post) ps) ∨ ∃ c, DBad args (pre ++ .arg 0x70 v :: post) c) (hg : DGo pre) (hz : LeadNum v z) (h1 : -2147483648 ≤ z) (h2 : z < 0) :
    daemonMain E ini W args = some (.err (bs "CMDLINE: invalid port \"" ++ v ++ bs "\"")) := by
  have ok : ∀ o ∈ pre, match o with | .flag c => c ∈ dFlags | .arg c _ => c ∈ dArgs := by
    intro o ho
    rcases hw with ⟨ps, h⟩ | ⟨c, h⟩
    · exact gWords_ok h o (by simp [ho])
    · exact gBad_ok h o (by simp [ho])
  have ho : (gGetopt (bs "FhkLqrvVz") (bs "cpP") args).opts = pre ++ .arg 0x70 v :: post := by
    rcases hw with ⟨ps, h⟩ | ⟨c, h⟩
    · rw [words_opts h]
    · exact (gGetopt_bad dTab h).1
  unfold daemonMain daemonArgs
  rw [ho, daemonOpts_app E pre _ _ (goOpts_of hg ok), daemonOpts, daemonOpt, if_neg (by decide), if_pos rfl, atoi_lead hz h1 (by omega), Option.map_some, if_pos h2]
  rfl

example : daemonMain progDemo confDemo.gIpmi ⟨fun _ => none, fun _ => 0, [], fun _ _ => .ok, envDemo, 50, 0⟩ [bs "-kV", bs "-x"] = some (.exit (bs "conman-0.3.1\n")) ∧
    daemonMain progDemo confDemo.gIpmi ⟨fun _ => none, fun _ => 0, [], fun _ _ => .ok, envDemo, 50, 0⟩ [bs "-k", bs "-x", bs "-V"] = some (.err (bs "CMDLINE: invalid option \"x\"")) ∧
    daemonMain progDemo confDemo.gIpmi ⟨fun _ => none, fun _ => 0, [], fun _ _ => .ok, envDemo, 50, 0⟩ [bs "-p-1", bs "-V"] = some (.err (bs "CMDLINE: invalid port \"-1\"")) := by
  decide +kernel

/-- C87. Other command lines do not matter: only a port that does not fit an `int` is undefined. -/
theorem C87_defined (E : DProg) (args : List (List UInt8)) (h : daemonArgs E args = none) :
    ∃ v z, v ∈ argsOf 0x70 (gGetopt dFlags dArgs args).opts ∧ LeadNum v z ∧ (z < -2147483648 ∨ 2147483647 < z) := by
  have key : ∀ (os : List COpt) (a : DArgs), daemonOpts E a os = none → ∃ v z, v ∈ argsOf 0x70 os ∧ LeadNum v z ∧ (z < -2147483648 ∨ 2147483647 < z) := by
    intro os
    induction os with
    | nil => intro a h; cases h
    | cons o os ih =>
      intro a h
      rw [daemonOpts] at h
      cases hd : daemonOpt E a o with
      | none =>
        cases o with
        | flag x =>
          exfalso
          rw [daemonOpt] at hd
          repeat' (split at hd; · cases hd)
          cases hd
        | arg x v =>
          rw [daemonOpt] at hd
          split at hd
          · cases hd
          · split at hd
            · rename_i hx
              subst hx
              rw [Option.map_eq_none_iff, atoi_leadVal] at hd
              refine ⟨v, leadVal v, by rw [argsOf_arg, if_pos rfl]; simp, (leadNum_iff _ _).2 rfl, ?_⟩
              split at hd
              · cases hd
              · omega
            · split at hd <;> cases hd
      | some r =>
        rw [hd, Option.bind_some] at h
        cases r with
        | go a' =>
          obtain ⟨v, z, h1, h2⟩ := ih a' h
          exact ⟨v, z, argsOf_sub _ _ _ _ h1, h2⟩
        | _ => cases h
  unfold daemonArgs at h
  rw [Option.map_eq_none_iff] at h
  exact key _ _ h

/-- C87. Pid files with longer names are cut. -/
theorem C87_long_pidfile (E : DProg) (v : List UInt8) (h : v.head? ≠ some 0x2F) (hl : 1023 < (E.cwd ++ 0x2F :: v).length) (hv : v ≠ []) :
    ∃ a, daemonArgs E [0x2D :: 0x50 :: v] = some (.go a) ∧ a.pidFile = some ((E.cwd ++ 0x2F :: v).take 1023) ∧ a.pidFile ≠ some (inDir E.cwd v) := by
  have hw : DWords [0x2D :: 0x50 :: v] [.arg 0x50 v] [] := .attached [] 0x50 v [] [] [] (by decide) (by decide) hv .nil
  have hg : DGo [.arg 0x50 v] := ⟨fun c _ g => (by cases g with | tail _ g => cases g), fun w hw => (by cases hw)⟩
  refine ⟨_, daemonArgs_go hw hg, ?_, ?_⟩
  · show some (relName E.cwd v) = _
    unfold relName joinFormat
    rw [if_pos h]
  · show some (relName E.cwd v) ≠ _
    unfold relName joinFormat inDir
    rw [if_pos h, if_neg h]
    intro e
    have := congrArg List.length (Option.some.inj e)
    rw [List.length_take] at this
    omega

example : (bs "x").head? ≠ some 0x2F ∧ 1023 < ((List.replicate 1030 0x61 : List UInt8) ++ 0x2F :: bs "x").length := by
  rw [List.length_append, List.length_replicate]; decide

/-! ### Listening -/

theorem opts_none_go {E : DProg} {os : List COpt} {b : DArgs} (hok : ∀ o ∈ os, match o with | .flag c => c ∈ dFlags | .arg c _ => c ∈ dArgs) :
    ∀ a, daemonOpts E a os = some (.go b) → GoOpts os := by
  induction os with
  | nil => intro a _; exact ⟨hok, (fun c _ g => by cases g), (fun v hv => by cases hv)⟩
  | cons o os ih =>
    intro a h
    rw [daemonOpts] at h
    cases hd : daemonOpt E a o with
    | none => rw [hd] at h; cases h
    | some r =>
      rw [hd, Option.bind_some] at h
      cases r with
      | go a' =>
        have i := ih (fun o ho => hok o (List.mem_cons_of_mem _ ho)) a' h
        refine ⟨hok, ?_, ?_⟩
        · intro c hc g
          rcases List.mem_cons.1 g with e | e
          · subst e
            have : ∀ c ∈ dPrint, c = 0x68 ∨ c = 0x4C ∨ c = 0x56 := by decide
            rcases this c hc with rfl | rfl | rfl <;> cases hd
          · exact i.print c hc e
        · intro v hv
          cases o with
          | flag x => exact i.port v hv
          | arg x w =>
            rw [argsOf_arg] at hv
            split at hv
            · rename_i hx
              subst hx
              rcases List.mem_cons.1 hv with e | e
              · subst e
                rw [daemonOpt, if_neg (by decide), if_pos rfl] at hd
                cases ha : atoi v with
                | none => rw [ha] at hd; cases hd
                | some i =>
                  refine ⟨i, rfl, ?_⟩
                  rw [ha, Option.map_some] at hd
                  split at hd
                  · cases hd
                  · omega
              · exact i.port v e
            · exact i.port v hv
      | _ => cases h

/-- The configuration file is read and followed. -/
theorem main_up {E : DProg} {ini : IpmiOpt} {W : DWorld} {args : List (List UInt8)} {addr port said a c} (h : daemonMain E ini W args = some (.up addr port said a c)) :
    daemonArgs E args = some (.go a) ∧ a.signal = none ∧ ∃ s, W.text a.conf = some s ∧
      processConfig W.env s { createConf E.cwd ini with port := a.port, pidFile := a.pidFile } = some c ∧ c.consoles ≠ [] ∧
      addr = (if c.loopBack then loopbackAddr else anyAddr) ∧ port = (c.port % 65536).toNat ∧ said = c.port := by
  unfold daemonMain at h
  cases hr : daemonArgs E args with
  | none => rw [hr] at h; cases h
  | some r =>
    rw [hr, Option.bind_some] at h
    cases r with
    | exit o => cases h
    | err o => cases h
    | go a0 =>
      dsimp only at h
      cases ht : W.text a0.conf with
      | none => rw [ht] at h; cases h
      | some s =>
        rw [ht] at h
        dsimp only at h
        cases hs : a0.signal with
        | some sig =>
          rw [hs] at h
          dsimp only at h
          unfold signalDaemon at h
          rw [Option.map_eq_some_iff] at h
          obtain ⟨pid, _, h⟩ := h
          split at h
          · cases h
          · dsimp only at h
            cases hk : W.kill pid sig <;> rw [hk] at h <;> dsimp only at h <;> first | cases h | (split at h <;> cases h)
        | none =>
          rw [hs] at h
          dsimp only at h
          cases hl : setLock W.locks W.self (W.ino a0.conf) false with
          | none => rw [hl] at h; cases h
          | some t =>
            rw [hl] at h
            dsimp only at h
            split at h
            · cases h
            · rw [Option.map_eq_some_iff] at h
              obtain ⟨c0, hc, h⟩ := h
              split at h
              · cases h
              · rename_i hn
                cases h
                exact ⟨rfl, hs, s, ht, hc, hn, rfl, rfl, rfl⟩

theorem words_go {E : DProg} {args : List (List UInt8)} {os ps a} (hw : DWords args os ps) (h : daemonArgs E args = some (.go a)) : DGo os ∧ a = daemonSet E { conf := E.conf } os := by
  unfold daemonArgs at h
  rw [words_opts hw, Option.map_eq_some_iff] at h
  obtain ⟨r, h1, h2⟩ := h
  cases r with
  | exit o => cases h2
  | err o => cases h2
  | go a' =>
    cases h2
    have g := opts_none_go (gWords_ok hw) _ h1
    refine ⟨⟨g.print, fun v hv => ?_⟩, ?_⟩
    · obtain ⟨i, hi, h0⟩ := g.port v hv
      rw [atoi_leadVal] at hi
      split at hi
      · rename_i hr
        cases hi
        exact ⟨_, (leadNum_iff _ _).2 rfl, h0, hr.2⟩
      · cases hi
    · rw [daemonOpts_go E _ os g] at h1
      cases h1
      rfl

/-- C87. A daemon that comes up was not asked to print something or to control another one.  It listens on the port of the command line, whatever the configuration says; on 7890 if there is
none and the configuration does not mention it.  The pid file is that of the command line; there is none if neither mentions it.  Only a configuration with the word LOOPBACK makes
it listen on other addresses than that of the host itself. -/
theorem C87_listen_partial (E : DProg) (ini : IpmiOpt) (W : DWorld) (args : List (List UInt8)) (os : List COpt) (ps : List (List UInt8)) (hw : DWords args os ps)
    (hf : ∀ v ∈ argsOf 0x50 os, Fits1 E.cwd v) (addr : List Nat) (port : Nat) (said : Int) (a : DArgs) (c : SConf)
    (h : daemonMain E ini W args = some (.up addr port said a c)) :
    ArgsOf E os a ∧ (∀ x ∈ bs "kqrhLV", .flag x ∉ os) ∧
    ∃ s, W.text (lastOr E.conf (argsOf 0x63 os)) = some s ∧
      (∀ v z, (argsOf 0x70 os).getLast? = some v → LeadNum v z → said = z ∧ port = (z % 65536).toNat ∧ (z ≤ 65535 → (port : Int) = z)) ∧
      (argsOf 0x70 os = [] → ¬ occursIn (bs "PORT") s → said = 7890 ∧ port = 7890) ∧
      (∀ v, (argsOf 0x50 os).getLast? = some v → c.pidFile = some (inDir E.cwd v)) ∧
      (argsOf 0x50 os = [] → ¬ occursIn (bs "PIDFILE") s → c.pidFile = none) ∧
      (addr = loopbackAddr ∨ addr = anyAddr ∧ occursIn (bs "LOOPBACK") s) ∧
      (occursIn (bs "CONSOLE") s) := by
  obtain ⟨h1, h2, s, h3, h4, h5, h6, h7, h8⟩ := main_up h
  obtain ⟨hg, e⟩ := words_go hw h1
  have A : ArgsOf E os a := by rw [e]; exact daemonSet_args hg hf
  obtain ⟨p1, p2, p3, _, _⟩ := C54_cmdline _ _ _ _ h4
  obtain ⟨c1, k, kc⟩ := processConfig_keys _ _ _ _ h4
  have dp : c.loopBack = c1.loopBack ∧ c.pidFile = c1.pidFile ∧ c.consoles = c1.consoles ∧ (c1.port < 0 → c.port = 7890) := by
    rw [kc]
    unfold defaultPort
    split
    · exact ⟨rfl, rfl, rfl, fun _ => rfl⟩
    · rename_i hn; exact ⟨rfl, rfl, rfl, fun g => absurd g hn⟩
  refine ⟨A, ?_, s, by rw [← A.conf]; exact h3, ?_, ?_, ?_, ?_, ?_, ?_⟩
  · intro x hx g
    have : ∀ x ∈ bs "kqrhLV", x ∈ dPrint ∨ x ∈ bs "kqr" := by decide
    rcases this x hx with q | q
    · exact hg.1 x q g
    · have hs := A.signal
      rw [h2] at hs
      have hn : lastFlag (bs "kqr") os = none := by
        cases hl : lastFlag (bs "kqr") os with
        | none => rfl
        | some y => rw [hl] at hs; cases hs
      unfold lastFlag at hn
      rw [List.getLast?_eq_none_iff] at hn
      have : x ∈ os.filterMap fun o => match o with | .flag x => if x ∈ bs "kqr" then some x else none | .arg _ _ => none :=
        List.mem_filterMap.2 ⟨.flag x, g, if_pos q⟩
      have hm : x ∈ ([] : List UInt8) := by rw [← hn]; exact this
      cases hm
  · intro v z hv hz
    have hp := A.port v z hv hz
    obtain ⟨z', q1, q2, q3⟩ := hg.2 v (List.mem_of_getLast? hv)
    have ez : z' = z := by rw [leadNum_val q1, leadNum_val hz]
    subst ez
    have hc : c.port = z' := by rw [← hp]; exact p1 (by rw [show ({ createConf E.cwd ini with port := a.port, pidFile := a.pidFile } : SConf).port = a.port from rfl]; omega)
    refine ⟨by rw [h8, hc], by rw [h7, hc], fun hl => ?_⟩
    rw [h7, hc]; omega
  · intro hn ho
    have hp := A.noPort hn
    have hk := k.port ho
    have : c.port = 7890 := dp.2.2.2 (by rw [hk]; show a.port < 0; omega)
    rw [h8, h7, this]
    exact ⟨rfl, rfl⟩
  · intro v hv
    refine p2 _ ?_
    show a.pidFile = _
    rw [A.pidFile, hv]; rfl
  · intro hn ho
    rw [dp.2.1, k.pidFile ho]
    show a.pidFile = none
    rw [A.pidFile, hn]; rfl
  · by_cases ho : occursIn (bs "LOOPBACK") s
    · rw [h6]
      cases c.loopBack
      · right; exact ⟨rfl, ho⟩
      · left; rfl
    · left
      rw [h6, dp.1, k.loopBack ho]
      rfl
  · by_cases ho : occursIn (bs "CONSOLE") s
    · exact ho
    · exfalso
      apply h5
      rw [dp.2.2.1, k.consoles ho]
      rfl

def worldDemo (conf : String) (locks : List FLock) : DWorld where
  text n := if n = bs "/etc/conman.conf" then some (bs conf) else if n = bs "/run/x" then some (bs "10\n") else none
  ino n := if n = bs "/etc/conman.conf" then 7 else 8
  locks := locks
  kill p _ := if p = 10 then .ok else .noProc
  env := envDemo
  self := 50
  pick := 0

/-- What is up. -/
def upDemo (conf : String) (args : List String) : Option (List Nat × Nat × Int × Option (List UInt8)) :=
  match daemonMain progDemo confDemo.gIpmi (worldDemo conf []) (args.map bs) with
  | some (.up addr port said _ c) => some (addr, port, said, c.pidFile)
  | _ => none

example : upDemo "CONSOLE name=x dev='/dev/ttyS0'\nSERVER port=99 pidfile='/run/y'\n" ["-p", "80", "-P/run/x"] = some ([127, 0, 0, 1], 80, 80, some (bs "/run/x")) ∧
    upDemo "CONSOLE name=x dev='/dev/ttyS0'\n" [] = some ([127, 0, 0, 1], 7890, 7890, none) ∧
    upDemo "CONSOLE name=x dev='/dev/ttyS0'\nserver loopback=off port=99 pidfile='/run/y'\n" [] = some ([0, 0, 0, 0], 99, 99, some (bs "/run/y")) :=
  ⟨by decide +kernel, by decide +kernel, by decide +kernel⟩

/-- C87. Ports are cut to 16 bits: this daemon says that it listens on port 70000, and does on another one. -/
theorem C87_port_cut : upDemo "CONSOLE name=x dev='/dev/ttyS0'\n" ["-p70000"] = some ([127, 0, 0, 1], 4464, 70000, none) ∧
    upDemo "CONSOLE name=x dev='/dev/ttyS0'\nSERVER port=70000\n" [] = some ([127, 0, 0, 1], 4464, 70000, none) :=
  ⟨by decide +kernel, by decide +kernel⟩

/-- C87. A port that is no number is 0, which is any port. -/
theorem C87_port_text (E : DProg) (v : List UInt8) (hv : v ≠ []) (h : ∀ c, v.head? = some c → blankByte c = false ∧ c ≠ 0x2B ∧ c ≠ 0x2D ∧ ¬ digit c) :
    ∃ a, daemonArgs E [0x2D :: 0x70 :: v] = some (.go a) ∧ a.port = 0 := by
  have hz : LeadNum v 0 := ⟨[], [], v, rfl, (fun c hc => by cases hc), .plain [] (by simp), fun c hc => ⟨(h c hc).2.2.2, fun _ => ⟨(h c hc).1, (h c hc).2.1, (h c hc).2.2.1⟩⟩⟩
  have hw : DWords [0x2D :: 0x70 :: v] [.arg 0x70 v] [] := .attached [] 0x70 v [] [] [] (by decide) (by decide) hv .nil
  have hg : DGo [.arg 0x70 v] := by
    refine ⟨fun c _ g => (by cases g with | tail _ g => cases g), fun w hw => ?_⟩
    rw [argsOf_arg, if_pos rfl] at hw
    cases hw with
    | head => exact ⟨0, hz, by decide, by decide⟩
    | tail _ g => cases g
  have A := daemonSet_args (E := E) hg (fun w hw => by cases hw)
  exact ⟨_, daemonArgs_go hw hg, A.port v 0 (by rw [argsOf_arg, if_pos rfl]; rfl) hz⟩

example : upDemo "CONSOLE name=x dev='/dev/ttyS0'\nSERVER port=99\n" ["-phttp"] = some ([127, 0, 0, 1], 0, 0, none) := by decide +kernel

/-- C87. A daemon comes up only if no other process has a lock of its configuration file (locks that belong to an open file have no process, see C72). -/
theorem C87_alone (E : DProg) (ini : IpmiOpt) (W : DWorld) (args : List (List UInt8)) (addr : List Nat) (port : Nat) (said : Int) (a : DArgs) (c : SConf)
    (h : daemonMain E ini W args = some (.up addr port said a c)) (hp : ∀ l ∈ W.locks, 0 < l.pid) : ∀ l ∈ W.locks, l.ino = W.ino a.conf → l.pid = W.self := by
  obtain ⟨h1, h2, s, h3, _⟩ := main_up h
  unfold daemonMain at h
  rw [h1, Option.bind_some] at h
  dsimp only at h
  rw [h3, h2] at h
  dsimp only at h
  cases hl : setLock W.locks W.self (W.ino a.conf) false with
  | none => rw [hl] at h; cases h
  | some t =>
    rw [hl] at h
    dsimp only at h
    split at h
    · cases h
    · rename_i hn
      intro l hm hi
      by_cases e : l.pid = W.self
      · exact e
      · exfalso
        have hm' : l ∈ lockConflicts t W.self (W.ino a.conf) true := mem_conflicts.2 ⟨(setLock_mem hl l).2 (.inl ⟨hm, fun g => e g.1⟩), e, hi⟩
        rcases testLock_spec t W.self (W.ino a.conf) W.pick with ⟨g, _⟩ | ⟨x, hx, g⟩
        · rw [g] at hm'; cases hm'
        · obtain ⟨x1, x2, _⟩ := mem_conflicts.1 hx
          rcases (setLock_mem hl x).1 x1 with ⟨x1, _⟩ | x1
          · have := hp x x1
            omega
          · rw [x1] at x2; exact x2 rfl

example : (match daemonMain progDemo confDemo.gIpmi (worldDemo "CONSOLE name=x dev='/dev/ttyS0'\n" [⟨10, 8, false⟩]) [] with | some (.up ..) => true | _ => false) = true ∧
    daemonMain progDemo confDemo.gIpmi (worldDemo "CONSOLE name=x dev='/dev/ttyS0'\n" [⟨10, 7, false⟩]) [] = some (.err (bs "Configuration \"/etc/conman.conf\" in use by pid 10")) :=
  ⟨by decide +kernel, by decide +kernel⟩

/-- C87. Settings are what they are by default, unless the configuration file has the keyword in some form. -/
theorem C87_keywords (E : DProg) (ini : IpmiOpt) (W : DWorld) (args : List (List UInt8)) (addr : List Nat) (port : Nat) (said : Int) (a : DArgs) (c : SConf)
    (h : daemonMain E ini W args = some (.up addr port said a c)) :
    ∃ s, W.text a.conf = some s ∧
      (¬ occursIn (bs "COREDUMP") s → c.coreDump = false) ∧
      (¬ occursIn (bs "COREDUMPDIR") s → c.coreDumpDir = none) ∧
      (¬ occursIn (bs "EXECPATH") s → c.execPath = none) ∧
      (¬ occursIn (bs "KEEPALIVE") s → c.keepAlive = true) ∧
      (¬ occursIn (bs "LOGDIR") s → c.logDir = E.cwd) ∧
      (¬ occursIn (bs "LOGFILE") s → c.logFile = none) ∧
      (¬ occursIn (bs "LOOPBACK") s → c.loopBack = true) ∧
      (¬ occursIn (bs "NOFILE") s → c.noFile = 0) ∧
      (¬ occursIn (bs "RESETCMD") s → c.resetCmd = none) ∧
      (¬ occursIn (bs "SYSLOG") s → c.syslog = -1) ∧
      (¬ occursIn (bs "TCPWRAPPERS") s → c.tcpWrap = false) ∧
      (¬ occursIn (bs "TIMESTAMP") s → c.stamp = 0) ∧
      (¬ occursIn (bs "LOG") s → c.gLog = none) ∧
      (¬ occursIn (bs "LOGOPTS") s → c.gLogOpt = ⟨true, false, false⟩) ∧
      (¬ occursIn (bs "SEROPTS") s → c.gSer = ⟨9600, 8, 0, 1⟩) ∧
      (¬ occursIn (bs "IPMIOPTS") s → c.gIpmi = ini) ∧
      (¬ occursIn (bs "TESTOPTS") s → c.gTest = ⟨1024, -1, -1, 100⟩) ∧
      c.cwd = E.cwd := by
  obtain ⟨h1, h2, s, h3, h4, h5, h6, h7, h8⟩ := main_up h
  obtain ⟨c1, k, kc⟩ := processConfig_keys _ _ _ _ h4
  refine ⟨s, h3, ?_⟩
  have e : c.port = (defaultPort c1).port ∧ c = { c1 with port := c.port } := by
    rw [kc]
    unfold defaultPort
    split <;> exact ⟨rfl, rfl⟩
  rw [e.2]
  exact ⟨k.coreDump, k.coreDumpDir, k.execPath, k.keepAlive, k.logDir, k.logFile, k.loopBack, k.noFile, k.resetCmd, k.syslog, k.tcpWrap, k.stamp, k.gLog, k.gLogOpt, k.gSer, k.gIpmi, k.gTest, k.cwd⟩

example : ∃ addr port said a c, daemonMain progDemo confDemo.gIpmi (worldDemo "CONSOLE name=x dev='/dev/ttyS0'\nSERVER keepalive=off\n" []) [] = some (.up addr port said a c) ∧
    c.keepAlive = false ∧ c.tcpWrap = false ∧ c.logDir = bs "/root" := by
  have h : (daemonMain progDemo confDemo.gIpmi (worldDemo "CONSOLE name=x dev='/dev/ttyS0'\nSERVER keepalive=off\n" []) []).bind
    (fun r => match r with | .up _ _ _ _ c => some (c.keepAlive, c.tcpWrap, c.logDir) | _ => none) = some (false, false, bs "/root") := by decide +kernel
  revert h
  generalize daemonMain progDemo confDemo.gIpmi (worldDemo "CONSOLE name=x dev='/dev/ttyS0'\nSERVER keepalive=off\n" []) [] = r
  intro h
  match r, h with
  | some (.up addr port said a c), h =>
    have h : some (c.keepAlive, c.tcpWrap, c.logDir) = some (false, false, bs "/root") := h
    simp only [Option.some.injEq, Prod.mk.injEq] at h
    exact ⟨addr, port, said, a, c, rfl, h⟩

/-! ### Control -/

/-- What is reported of the locks while a daemon runs. -/
theorem testLock_running {f : Nat} {s : Daemons} (o : DaemonOwn f s) {p self : Int} (hs : self ≠ p) (pick : Nat) (hp : s.phase p = some (.running f))
    (hn : ∀ q, q ≠ p → ∀ x, s.phase q = some x → x = .opened f) : testLock s.locks self f true pick = p := by
  obtain ⟨l, l1, l2, l3⟩ := o.inv.held p _ hp rfl
  have hc : l ∈ lockConflicts s.locks self f true := mem_conflicts.2 ⟨l1, by rw [l2]; exact Ne.symm hs, l3⟩
  have all : ∀ l ∈ lockConflicts s.locks self f true, l.pid = p := by
    intro l hl
    obtain ⟨x, x1, x2, _⟩ := o.own l (mem_conflicts.1 hl).1
    rcases Decidable.em (l.pid = p) with g | g
    · exact g
    · rw [hn l.pid g x x1] at x2; cases x2
  rcases testLock_spec s.locks self f pick with ⟨g, _⟩ | ⟨l', g1, g2⟩
  · rw [g] at hc; cases hc
  · rw [g2, all l' g1]

theorem main_signal {E : DProg} {ini : IpmiOpt} {W : DWorld} {args : List (List UInt8)} {os ps} (hw : DWords args os ps) (hg : DGo os) {x : UInt8}
    (hx : lastFlag (bs "kqr") os = some x) {s : List UInt8} (ht : W.text (lastOr E.conf (argsOf 0x63 os)) = some s) :
    daemonMain E ini W args = signalDaemon W (daemonSet E { conf := E.conf } os) (dSignal x) := by
  unfold daemonMain
  rw [daemonArgs_go hw hg, Option.bind_some]
  dsimp only
  rw [show (daemonSet E { conf := E.conf } os).conf = lastOr E.conf (argsOf 0x63 os) from rfl, ht,
    show (daemonSet E { conf := E.conf } os).signal = some (dSignal x) by unfold daemonSet; dsimp only; rw [hx]]

/-- C87. Of a daemon that runs, and while no other one starts: `-q` prints its process id, `-r` and `-k` send it SIGHUP and SIGTERM (the last of these options counts),
with a message if `-v` is given. -/
theorem C87_control_partial (E : DProg) (ini : IpmiOpt) (W : DWorld) (args : List (List UInt8)) (os : List COpt) (ps : List (List UInt8)) (hw : DWords args os ps) (hg : DGo os)
    (x : UInt8) (hx : lastFlag (bs "kqr") os = some x) (s : List UInt8) (ht : W.text (lastOr E.conf (argsOf 0x63 os)) = some s)
    (f : Nat) (hi : W.ino (lastOr E.conf (argsOf 0x63 os)) = f) (t : Option (List UInt8)) (h : List DEv) (hm : Daemons.only h)
    (hl : W.locks = (Daemons.run { file := some f, pidfile := t } h).locks) (p : Int) (hs : W.self ≠ p) (hp : (Daemons.run { file := some f, pidfile := t } h).runs p f)
    (hn : ∀ q, q ≠ p → ∀ x, (Daemons.run { file := some f, pidfile := t } h).phase q = some x → x = .opened f)
    (hk : W.kill p (dSignal x) = .ok ∨ x = 0x71 ∧ W.kill p (dSignal x) = .perm) :
    daemonMain E ini W args = some (.sent p (if x = 0x6B then 15 else if x = 0x72 then 1 else 0) (if x = 0x71 then decInt p ++ [0x0A] else [])
      (if x ≠ 0x71 ∧ .flag 0x76 ∈ os then bs "Configuration \"" ++ lastOr E.conf (argsOf 0x63 os) ++ bs "\" (pid " ++ decInt p ++ bs ") " ++
        (if x = 0x72 then bs "reconfigured on signal=1\n" else bs "terminated on signal=15\n") else [])) := by
  have o := (DaemonOwn.init f t).run h (only_mine hm)
  have pp := o.inv.pid p (by rw [show (Daemons.run { file := some f, pidfile := t } h).phase p = _ from hp]; intro g; cases g)
  have tl := testLock_running o hs W.pick hp hn
  rw [main_signal hw hg hx ht]
  have hx3 : x = 0x6B ∨ x = 0x71 ∨ x = 0x72 := by
    have : x ∈ bs "kqr" := by
      unfold lastFlag at hx
      have := List.mem_of_getLast? hx
      obtain ⟨o, _, e⟩ := List.mem_filterMap.1 this
      cases o with
      | flag y =>
        dsimp only at e
        split at e
        · rename_i hy; cases e; exact hy
        · cases e
      | arg y v => cases e
    have all : ∀ x ∈ bs "kqr", x = 0x6B ∨ x = 0x71 ∨ x = 0x72 := by decide
    exact all x this
  unfold signalDaemon Daemons.control
  dsimp only
  rw [show (daemonSet E { conf := E.conf } os).conf = lastOr E.conf (argsOf 0x63 os) from rfl, hi, hl, tl, if_pos (show p ≠ 0 by omega), Option.map_some, if_neg (show ¬ p = 0 by omega)]
  have hv : (daemonSet E { conf := E.conf } os).verbose = decide (COpt.flag 0x76 ∈ os) := by unfold daemonSet; simp
  rw [hv]
  rcases hk with g | ⟨rfl, g⟩
  · rw [g]
    have key : ∀ (A T n R : List UInt8), T ++ bs " signal=" ++ n ++ [0x0A] = R → (A ++ T) ++ bs " signal=" ++ n ++ [0x0A] = A ++ R := by
      intro A T n R e
      rw [← e]; simp only [List.append_assoc]
    rcases hx3 with rfl | rfl | rfl
    · by_cases hvv : COpt.flag 0x76 ∈ os
      · simp only [hvv]; exact congrArg (fun z => some (DRes.sent p 15 [] z)) (key _ (bs "terminated on") (decInt 15) (bs "terminated on signal=15\n") (by decide))
      · simp only [hvv]; rfl
    · rfl
    · by_cases hvv : COpt.flag 0x76 ∈ os
      · simp only [hvv]; exact congrArg (fun z => some (DRes.sent p 1 [] z)) (key _ (bs "reconfigured on") (decInt 1) (bs "reconfigured on signal=1\n") (by decide))
      · simp only [hvv]; rfl
  · rw [g]; rfl

/-- C87. Signals are sent to a process that has a lock of the configuration file, or else to that of the pid file of the command line; to no other, and no other signal. -/
theorem C87_target (E : DProg) (ini : IpmiOpt) (W : DWorld) (args : List (List UInt8)) (os : List COpt) (ps : List (List UInt8)) (hw : DWords args os ps)
    (hf : ∀ v ∈ argsOf 0x50 os, Fits1 E.cwd v) (h0 : ∀ l ∈ W.locks, l.pid ≠ 0) (p sig : Int) (out say : List UInt8) (h : daemonMain E ini W args = some (.sent p sig out say)) :
    ∃ x, lastFlag (bs "kqr") os = some x ∧ sig = dSignal x ∧ p ≠ 0 ∧
      ((∃ l ∈ W.locks, l.pid = p ∧ l.ino = W.ino (lastOr E.conf (argsOf 0x63 os)) ∧ p ≠ W.self) ∨
       (∀ l ∈ W.locks, l.ino = W.ino (lastOr E.conf (argsOf 0x63 os)) → l.pid = W.self) ∧
        ∃ v text, (argsOf 0x50 os).getLast? = some v ∧ W.text (inDir E.cwd v) = some text ∧ readPidfile (some text) = some p) := by
  unfold daemonMain at h
  cases hr : daemonArgs E args with
  | none => rw [hr] at h; cases h
  | some r =>
    rw [hr, Option.bind_some] at h
    cases r with
    | exit o => cases h
    | err o => cases h
    | go a =>
      obtain ⟨hg, ea⟩ := words_go hw hr
      have A : ArgsOf E os a := by rw [ea]; exact daemonSet_args hg hf
      dsimp only at h
      cases ht : W.text a.conf with
      | none => rw [ht] at h; cases h
      | some s =>
        rw [ht] at h
        dsimp only at h
        cases hs : a.signal with
        | none =>
          rw [hs] at h
          dsimp only at h
          split at h
          · cases h
          · split at h
            · cases h
            · rw [Option.map_eq_some_iff] at h
              obtain ⟨c, _, h⟩ := h
              split at h <;> cases h
        | some sg =>
          rw [hs] at h
          dsimp only at h
          have hsig := A.signal
          rw [hs] at hsig
          cases hx : lastFlag (bs "kqr") os with
          | none => rw [hx] at hsig; cases hsig
          | some x =>
            rw [hx] at hsig
            cases hsig
            unfold signalDaemon at h
            rw [Option.map_eq_some_iff] at h
            obtain ⟨pid, hc, h⟩ := h
            split at h
            · cases h
            · rename_i hpid
              have e : pid = p ∧ dSignal x = sig := by
                dsimp only at h
                cases hk : W.kill pid (dSignal x) <;> rw [hk] at h <;> dsimp only at h
                · cases h; exact ⟨rfl, rfl⟩
                · split at h <;> cases h
                  exact ⟨rfl, rfl⟩
                · cases h
                · cases h
              obtain ⟨rfl, rfl⟩ := e
              refine ⟨x, rfl, rfl, hpid, ?_⟩
              unfold Daemons.control at hc
              dsimp only at hc
              rw [A.conf] at hc
              split at hc
              · rename_i hn
                left
                cases hc
                rcases testLock_spec W.locks W.self (W.ino (lastOr E.conf (argsOf 0x63 os))) W.pick with ⟨_, g⟩ | ⟨l, g1, g2⟩
                · exact absurd g hn
                · obtain ⟨q1, q2, q3⟩ := mem_conflicts.1 g1
                  exact ⟨l, q1, g2.symm, q3, by rw [g2]; exact q2⟩
              · rename_i hn
                right
                have hn : testLock W.locks W.self (W.ino (lastOr E.conf (argsOf 0x63 os))) true W.pick = 0 := Decidable.not_not.1 hn
                rw [A.pidFile] at hc
                refine ⟨?_, ?_⟩
                · intro l hl e
                  rcases testLock_spec W.locks W.self (W.ino (lastOr E.conf (argsOf 0x63 os))) W.pick with ⟨g, _⟩ | ⟨l', g1, g2⟩
                  · rcases Decidable.em (l.pid = W.self) with q | q
                    · exact q
                    · have : l ∈ lockConflicts W.locks W.self (W.ino (lastOr E.conf (argsOf 0x63 os))) true := mem_conflicts.2 ⟨hl, q, e⟩
                      rw [g] at this; cases this
                  · exact absurd (g2.symm.trans hn) (h0 l' (mem_conflicts.1 g1).1)
                · cases hv : (argsOf 0x50 os).getLast? with
                  | none =>
                    rw [hv] at hc
                    exact absurd (Option.some.inj hc).symm hpid
                  | some v =>
                    rw [hv] at hc
                    have hc : readPidfile (W.text (inDir E.cwd v)) = some pid := hc
                    cases htx : W.text (inDir E.cwd v) with
                    | none => rw [htx] at hc; exact absurd (Option.some.inj hc).symm hpid
                    | some text => rw [htx] at hc; exact ⟨v, text, rfl, htx, hc⟩

/-- C87. If no process has a lock of the configuration file and the command line has no pid file, no signal is sent. -/
theorem C87_inactive (E : DProg) (ini : IpmiOpt) (W : DWorld) (args : List (List UInt8)) (os : List COpt) (ps : List (List UInt8)) (hw : DWords args os ps) (hg : DGo os)
    (x : UInt8) (hx : lastFlag (bs "kqr") os = some x) (s : List UInt8) (ht : W.text (lastOr E.conf (argsOf 0x63 os)) = some s)
    (hl : ∀ l ∈ W.locks, l.ino = W.ino (lastOr E.conf (argsOf 0x63 os)) → l.pid = W.self) (hP : argsOf 0x50 os = []) :
    daemonMain E ini W args = some (.err (bs "Configuration \"" ++ lastOr E.conf (argsOf 0x63 os) ++ bs "\" does not appear to be active")) := by
  rw [main_signal hw hg hx ht]
  unfold signalDaemon Daemons.control
  dsimp only
  have e0 : testLock W.locks W.self (W.ino (daemonSet E { conf := E.conf } os).conf) true W.pick = 0 := by
    rcases testLock_spec W.locks W.self (W.ino (daemonSet E { conf := E.conf } os).conf) W.pick with ⟨_, g⟩ | ⟨l, g1, _⟩
    · exact g
    · obtain ⟨q1, q2, q3⟩ := mem_conflicts.1 g1
      exact absurd (hl l q1 q3) q2
  rw [e0, if_neg (show ¬ (0 : Int) ≠ 0 by decide)]
  have ep : (daemonSet E { conf := E.conf } os).pidFile = none := by unfold daemonSet; dsimp only; rw [hP]; rfl
  rw [ep]
  rfl

example : daemonMain progDemo confDemo.gIpmi (worldDemo "" [⟨10, 7, false⟩]) [bs "-rkv"] =
    some (.sent 10 15 [] (bs "Configuration \"/etc/conman.conf\" (pid 10) terminated on signal=15\n")) ∧
    daemonMain progDemo confDemo.gIpmi (worldDemo "" [⟨10, 7, false⟩]) [bs "-kq"] = some (.sent 10 0 (bs "10\n") []) ∧
    daemonMain progDemo confDemo.gIpmi (worldDemo "" [⟨10, 7, false⟩]) [bs "-c", bs "/run/x", bs "-k"] = some (.err (inactiveMsg (bs "/run/x"))) :=
  ⟨by decide +kernel, by decide +kernel, by decide +kernel⟩

/-- The hypotheses of C87_control_partial hold of a daemon that was started. -/
example : (worldDemo "" [⟨10, 7, false⟩]).locks = (Daemons.run { file := some 7 } [.start 10, .step 10 0, .step 10 0, .step 10 0]).locks ∧
    (Daemons.run { file := some 7 } [.start 10, .step 10 0, .step 10 0, .step 10 0]).runs 10 7 ∧ Daemons.only [.start 10, .step 10 0, .step 10 0, .step 10 0] ∧
    lastFlag (bs "kqr") [.flag 0x72, .flag 0x6B, .flag 0x76] = some 0x6B := by
  refine ⟨by decide +kernel, by decide +kernel, ?_, by decide⟩
  intro x hx
  simp only [List.mem_cons, List.not_mem_nil, or_false] at hx
  rcases hx with rfl | rfl | rfl | rfl <;> simp

/-- C87. The pid file of a configuration is of no use for control: after the configuration file was replaced (so that it has no lock), `-k` does not find the daemon, although
the file of the directive PIDFILE has its process id; if the same file is given with `-P` the daemon is found. -/
theorem C87_pidfile_ignored :
    daemonMain progDemo confDemo.gIpmi (worldDemo "SERVER pidfile='/run/x'\nCONSOLE name=x dev='/dev/ttyS0'\n" [⟨10, 6, false⟩]) [bs "-k"] = some (.err (inactiveMsg (bs "/etc/conman.conf"))) ∧
    daemonMain progDemo confDemo.gIpmi (worldDemo "SERVER pidfile='/run/x'\nCONSOLE name=x dev='/dev/ttyS0'\n" [⟨10, 6, false⟩]) [bs "-k", bs "-P", bs "/run/x"] = some (.sent 10 15 [] []) :=
  ⟨by decide +kernel, by decide +kernel⟩

/-! ### Help -/

theorem pieces_line {a b : List UInt8} (h : (0x0A : UInt8) ∉ a) : pieces 0x0A (a ++ 0x0A :: b) = a :: pieces 0x0A b := by
  induction a with
  | nil => rw [List.nil_append, pieces, if_pos rfl]
  | cons c a ih =>
    have hc : c ≠ 0x0A := fun e => h (by rw [e]; exact List.mem_cons_self)
    rw [List.cons_append, pieces, if_neg hc, ih (fun g => h (List.mem_cons_of_mem _ g))]

/-- The lines behind those with names. -/
def helpTail : List (List UInt8) :=
  [bs "  -F        Run daemon in foreground.", bs "  -h        Display this help.", bs "  -k        Kill daemon.", bs "  -L        Display license information.",
    bs "  -p PORT   Specify port number. [7890]", bs "  -P FILE   Specify PID file.", bs "  -q        Query daemon's pid.", bs "  -r        Re-open log files.", bs "  -v        Be verbose.",
    bs "  -V        Display version information.", bs "  -z        Zero log files.", [], []]

theorem help_lines (E : DProg) (hp : (0x0A : UInt8) ∉ E.prog) (hc : (0x0A : UInt8) ∉ E.conf) :
    pieces 0x0A (serverHelp E) = (bs "Usage: " ++ E.prog ++ bs " [OPTIONS]") :: [] :: (bs "  -c FILE   Specify configuration. [" ++ E.conf ++ bs "]") :: helpTail := by
  have n : ∀ a b c : List UInt8, (0x0A : UInt8) ∉ a → (0x0A : UInt8) ∉ b → (0x0A : UInt8) ∉ c → (0x0A : UInt8) ∉ a ++ b ++ c := by
    intro a b c h1 h2 h3 g
    rw [List.mem_append, List.mem_append] at g
    rcases g with (g | g) | g
    · exact h1 g
    · exact h2 g
    · exact h3 g
  have e1 : serverHelp E = (bs "Usage: " ++ E.prog ++ bs " [OPTIONS]") ++ 0x0A :: ([] ++ 0x0A :: ((bs "  -c FILE   Specify configuration. [" ++ E.conf ++ bs "]") ++ 0x0A ::
      (bs "  -F        Run daemon in foreground.\n" ++ (bs "  -h        Display this help.\n" ++ (bs "  -k        Kill daemon.\n" ++ (bs "  -L        Display license information.\n" ++ (bs "  -p PORT   Specify port number. [" ++ (dec 7890 ++ (bs "]\n" ++ (bs "  -P FILE   Specify PID file.\n" ++ (bs "  -q        Query daemon's pid.\n" ++ (bs "  -r        Re-open log files.\n" ++ (bs "  -v        Be verbose.\n" ++ (bs "  -V        Display version information.\n" ++ (bs "  -z        Zero log files.\n" ++ (bs "\n")))))))))))))))) := by
    unfold serverHelp
    rw [show bs " [OPTIONS]\n" = bs " [OPTIONS]" ++ [0x0A] by decide, show bs "]\n" = bs "]" ++ [0x0A] by decide]
    simp only [List.append_assoc, List.cons_append, List.nil_append]
    rfl
  rw [e1, pieces_line (n _ _ _ (by decide) hp (by decide)), pieces_line (by decide), pieces_line (n _ _ _ (by decide) hc (by decide))]
  rw [show pieces 0x0A (bs "  -F        Run daemon in foreground.\n" ++ (bs "  -h        Display this help.\n" ++ (bs "  -k        Kill daemon.\n" ++ (bs "  -L        Display license information.\n" ++ (bs "  -p PORT   Specify port number. [" ++ (dec 7890 ++ (bs "]\n" ++ (bs "  -P FILE   Specify PID file.\n" ++ (bs "  -q        Query daemon's pid.\n" ++ (bs "  -r        Re-open log files.\n" ++ (bs "  -v        Be verbose.\n" ++ (bs "  -V        Display version information.\n" ++ (bs "  -z        Zero log files.\n" ++ (bs "\n")))))))))))))) = helpTail by decide +kernel]

/-- C87. The help has a line for every option, and for no others: those without an argument and those with one. -/
theorem C87_help (E : DProg) (hp : (0x0A : UInt8) ∉ E.prog) (hc : (0x0A : UInt8) ∉ E.conf) (c : UInt8) :
    (c ∈ dFlags ↔ ∃ l ∈ pieces 0x0A (serverHelp E), l.take 3 = bs "  -" ∧ l[3]? = some c ∧ l[4]? = some 0x20 ∧ l[5]? = some 0x20) ∧
    (c ∈ dArgs ↔ ∃ l ∈ pieces 0x0A (serverHelp E), l.take 3 = bs "  -" ∧ l[3]? = some c ∧ l[4]? = some 0x20 ∧ ∃ u, l[5]? = some u ∧ u ≠ 0x20) := by
  rw [help_lines E hp hc]
  generalize hL : (bs "Usage: " ++ E.prog ++ bs " [OPTIONS]") :: [] :: (bs "  -c FILE   Specify configuration. [" ++ E.conf ++ bs "]") :: helpTail = L
  have hK : L.map (List.take 6) = [bs "Usage:", [], bs "  -c F"] ++ helpTail.map (List.take 6) := by
    rw [← hL, List.map_cons, List.map_cons, List.map_cons, List.append_assoc, List.append_assoc, List.take_append_of_le_length (by decide), List.take_append_of_le_length (by decide)]
    rfl
  have t3 : ∀ l : List UInt8, (l.take 6).take 3 = l.take 3 := fun l => by rw [List.take_take]; rfl
  have g : ∀ (l : List UInt8) (n : Nat), n < 6 → (l.take 6)[n]? = l[n]? := fun l n hn => List.getElem?_take_of_lt hn
  have all : ∀ c : UInt8, (c ∈ dFlags ↔ ∃ l ∈ [bs "Usage:", [], bs "  -c F"] ++ helpTail.map (List.take 6), l.take 3 = bs "  -" ∧ l[3]? = some c ∧ l[4]? = some 0x20 ∧ l[5]? = some 0x20) ∧
      (c ∈ dArgs ↔ ∃ l ∈ [bs "Usage:", [], bs "  -c F"] ++ helpTail.map (List.take 6), l.take 3 = bs "  -" ∧ l[3]? = some c ∧ l[4]? = some 0x20 ∧ l[5]? ≠ none ∧ l[5]? ≠ some 0x20) := by
    have : ∀ i : Fin 256, (UInt8.ofNat i.1 ∈ dFlags ↔ ∃ l ∈ [bs "Usage:", [], bs "  -c F"] ++ helpTail.map (List.take 6),
        l.take 3 = bs "  -" ∧ l[3]? = some (UInt8.ofNat i.1) ∧ l[4]? = some 0x20 ∧ l[5]? = some 0x20) ∧
      (UInt8.ofNat i.1 ∈ dArgs ↔ ∃ l ∈ [bs "Usage:", [], bs "  -c F"] ++ helpTail.map (List.take 6),
        l.take 3 = bs "  -" ∧ l[3]? = some (UInt8.ofNat i.1) ∧ l[4]? = some 0x20 ∧ l[5]? ≠ none ∧ l[5]? ≠ some 0x20) := by decide +kernel
    intro c
    have h := this ⟨c.toNat, c.toNat_lt⟩
    rw [show UInt8.ofNat (⟨c.toNat, c.toNat_lt⟩ : Fin 256).1 = c by simp] at h
    exact h
  rw [← hK] at all
  refine ⟨(all c).1.trans ⟨?_, ?_⟩, (all c).2.trans ⟨?_, ?_⟩⟩
  · rintro ⟨l, hl, h1, h2, h3, h4⟩
    obtain ⟨l0, hl0, rfl⟩ := List.mem_map.1 hl
    rw [t3] at h1
    rw [g _ _ (by decide)] at h2 h3 h4
    exact ⟨l0, hl0, h1, h2, h3, h4⟩
  · rintro ⟨l, hl, h1, h2, h3, h4⟩
    exact ⟨l.take 6, List.mem_map.2 ⟨l, hl, rfl⟩, by rw [t3]; exact h1, by rw [g _ _ (by decide)]; exact h2, by rw [g _ _ (by decide)]; exact h3, by rw [g _ _ (by decide)]; exact h4⟩
  · rintro ⟨l, hl, h1, h2, h3, h4, h5⟩
    obtain ⟨l0, hl0, rfl⟩ := List.mem_map.1 hl
    rw [t3] at h1
    rw [g _ _ (by decide)] at h2 h3 h4 h5
    cases hu : l0[5]? with
    | none => exact absurd hu h4
    | some u => exact ⟨l0, hl0, h1, h2, h3, u, hu, fun e => h5 (by rw [hu, e])⟩
  · rintro ⟨l, hl, h1, h2, h3, u, h4, h5⟩
    refine ⟨l.take 6, List.mem_map.2 ⟨l, hl, rfl⟩, by rw [t3]; exact h1, by rw [g _ _ (by decide)]; exact h2, by rw [g _ _ (by decide)]; exact h3, ?_, ?_⟩
    · rw [g _ _ (by decide), h4]; intro e; cases e
    · rw [g _ _ (by decide), h4]; intro e; exact h5 (Option.some.inj e)

example : pieces 0x0A (serverHelp progDemo) = [bs "Usage: conmand [OPTIONS]", [], bs "  -c FILE   Specify configuration. [/etc/conman.conf]"] ++ helpTail := by decide +kernel

end Conman
