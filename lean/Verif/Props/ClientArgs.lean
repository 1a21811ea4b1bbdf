import Verif.Lemma.ClientOpts
import Verif.Props.Proto

/-
C80: what the command line, the environment and files of names ask for.
-/
namespace Conman
open Spec

/-- The words of the command line are read as documented: exactly those lines that mean something are accepted, with the meaning they have. -/
theorem C80_getopt (args : List (List UInt8)) (os : List COpt) (ps : List (List UInt8)) : getopt args = ⟨os, ps, none⟩ ↔ ArgWords args os ps := by
  constructor
  · intro h
    have := getopt_sound args.length args (Nat.le_refl _) (by rw [h])
    rw [h] at this
    exact this
  · exact getopt_complete

/-- Names separated by commas. -/
theorem C80_comma (s : List UInt8) : commaLoop (s.length + 1) s = commaNames s := commaLoop_eq _ s (by omega)

/-- Files of names with lines of at most 1022 bytes. -/
theorem C80_file_partial (s : List UInt8) (h0 : (0 : UInt8) ∉ s) (h : ∀ l ∈ pieces 0x0A s, l.length ≤ 1022) : readNames (s.length + 1) s = fileNames s :=
  readNames_eq _ s (by omega) h0 h

/-- The environment. -/
theorem clientEnv_eq (e : ClientVars) (hp : ∀ p ∈ (e.host.toList.filterMap portPart) ++ e.port.toList, atoi p ≠ none) :
    clientEnv e clientConf0 = some { clientConf0 with
      host := destHost (bs "127.0.0.1") e.host.toList
      port := lastOr 7890 (((e.host.toList.filterMap portPart) ++ e.port.toList).filterMap fun p => (atoi p).filter (0 < ·))
      esc := lastOr 0x26 (e.esc.toList.filterMap List.head?) } := by
  have step : ∀ (c : ClientConf), envPort e.port c = some { c with port := lastPort c.port e.port.toList } := by
    intro c
    cases hq : e.port with
    | none => rfl
    | some p =>
      unfold envPort
      cases ha : atoi p with
      | none => exact absurd ha (hp p (by rw [hq]; simp))
      | some i =>
        simp only [Option.toList_some]
        rw [lastPort_cons _ i _ _ ha]
        by_cases hn : p = []
        · rw [if_neg (by simpa using hn)]
          rw [hn] at ha
          have : i = 0 := by
            have : atoi [] = some 0 := by decide
            rw [this] at ha
            simpa using ha.symm
          rw [this]
          rfl
        · rw [if_pos hn, ha, Option.map_some]
          by_cases g : 0 < i
          · rw [if_pos g, if_pos g]; rfl
          · rw [if_neg g, if_neg g]; rfl
  have host : ∀ c : ClientConf, envHost e.host c =
      some { c with host := destHost c.host e.host.toList, port := lastPort c.port (e.host.toList.filterMap portPart) } := by
    intro c
    cases hh : e.host with
    | none => rfl
    | some v =>
      unfold envHost
      simp only [Option.toList_some]
      rw [setDest_eq c v (fun p hpp => hp p (by rw [hh]; simp [hpp])), destHost_cons]
      rfl
  unfold clientEnv
  rw [host]
  simp only [Option.bind_some]
  rw [step]
  simp only [Option.map_some]
  have hport : lastOr (7890 : Int) (((e.host.toList.filterMap portPart) ++ e.port.toList).filterMap fun p => (atoi p).filter (0 < ·)) =
      lastPort (lastPort 7890 (e.host.toList.filterMap portPart)) e.port.toList := by
    unfold lastPort goodPorts
    rw [List.filterMap_append, lastOr_append]
  rw [hport]
  cases he : e.esc with
  | none => rfl
  | some x =>
    cases x with
    | nil => rfl
    | cons x r => rfl

/-- What the client does is what the last of contradictory options, then the environment, then the defaults say: host and port independently of each other, the
command, the flags, and the names, first those of files, then those of the command line. -/
theorem C80_conf_partial (fs : List UInt8 → Option (List UInt8)) (e : ClientVars) (args : List (List UInt8)) (os : List COpt) (ps : List (List UInt8))
    (h : ArgWords args os ps) (hL : COpt.flag 0x4C ∉ os) (hV : COpt.flag 0x56 ∉ os)
    (hp : ∀ p ∈ (e.host.toList ++ argsOf 0x64 os).filterMap portPart ++ e.port.toList, atoi p ≠ none)
    (hF : ∀ v ∈ argsOf 0x46 os, ∃ s, fs v = some s ∧ (0 : UInt8) ∉ s ∧ ∀ l ∈ pieces 0x0A s, l.length ≤ 1022) :
    ∃ c : ClientConf,
      c.host = destHost (bs "127.0.0.1") (e.host.toList ++ argsOf 0x64 os) ∧
      c.port = lastOr 7890 ((e.host.toList.filterMap portPart ++ e.port.toList ++ (argsOf 0x64 os).filterMap portPart).filterMap fun p => (atoi p).filter (0 < ·)) ∧
      c.esc = lastOr 0x26 (e.esc.toList.filterMap List.head? ++ (argsOf 0x65 os).map fun v => v.head?.getD 0) ∧
      c.log = (argsOf 0x6C os).getLast? ∧
      c.cmd = (if lastFlag (bs "mq") os = some 0x6D then .monitor else if lastFlag (bs "mq") os = some 0x71 then .query else .connect) ∧
      (c.force = true ↔ c.cmd ≠ .monitor ∧ lastFlag (bs "fj") os = some 0x66) ∧
      (c.join = true ↔ c.cmd ≠ .monitor ∧ lastFlag (bs "fj") os = some 0x6A) ∧
      (c.bcast = true ↔ c.cmd ≠ .monitor ∧ COpt.flag 0x62 ∈ os) ∧
      (c.quiet = true ↔ COpt.flag 0x51 ∈ os) ∧ (c.regex = true ↔ COpt.flag 0x72 ∈ os) ∧ (c.verbose = true ↔ COpt.flag 0x76 ∈ os) ∧
      c.consoles = ((argsOf 0x46 os).map fun v => fileNames ((fs v).getD [])).flatten ++ (ps.map commaNames).flatten ∧
      clientArgs fs e args = some (if COpt.flag 0x68 ∈ os ∨ (c.cmd ≠ .query ∧ c.consoles = []) then .exit 0 else .go c) := by
  have hok := argWords_ok h
  have hg := (C80_getopt args os ps).mpr h
  have henv := clientEnv_eq e (by
    intro p hpp
    apply hp p
    rw [List.filterMap_append]
    simp only [List.mem_append] at hpp ⊢
    rcases hpp with g | g
    · exact Or.inl (Or.inl g)
    · exact Or.inr g)
  have hopts := clientOpts_eq fs os { clientConf0 with
      host := destHost (bs "127.0.0.1") e.host.toList
      port := lastOr 7890 (((e.host.toList.filterMap portPart) ++ e.port.toList).filterMap fun p => (atoi p).filter (0 < ·))
      esc := lastOr 0x26 (e.esc.toList.filterMap List.head?) } hok hL hV
    (by
      intro v hv p hpp
      apply hp p
      rw [List.filterMap_append]
      simp only [List.mem_append, List.mem_filterMap]
      exact Or.inl (Or.inr ⟨v, hv, hpp⟩))
    (by
      intro v hv
      obtain ⟨s, hs, _⟩ := hF v hv
      rw [hs]; simp)
  have hnames : ((argsOf 0x46 os).map fun v => readNames (((fs v).getD []).length + 1) ((fs v).getD [])) = (argsOf 0x46 os).map fun v => fileNames ((fs v).getD []) := by
    apply List.map_congr_left
    intro v hv
    obtain ⟨s, hs, h0, hl⟩ := hF v hv
    rw [hs, Option.getD_some]
    exact C80_file_partial s h0 hl
  have hcomma : (ps.map fun a => commaLoop (a.length + 1) a) = ps.map commaNames := List.map_congr_left fun a _ => C80_comma a
  have hmq : ∀ x, lastFlag (bs "mq") os = some x → x = 0x6D ∨ x = 0x71 := by
    intro x hx
    unfold lastFlag at hx
    have := List.mem_of_getLast? hx
    obtain ⟨o, _, ho⟩ := List.mem_filterMap.mp this
    cases o with
    | arg _ _ => cases ho
    | flag y =>
      simp only at ho
      split at ho
      · rename_i hm
        rw [← Option.some.inj ho]
        have : ∀ y ∈ bs "mq", y = 0x6D ∨ y = 0x71 := by decide
        exact this y hm
      · cases ho
  unfold clientArgs clientCmdLine
  rw [henv, Option.bind_some, hg, hopts]
  simp only [Option.map_some]
  generalize hcc : optsConf fs _ os = cc
  have e1 : cc.host = destHost (bs "127.0.0.1") (e.host.toList ++ argsOf 0x64 os) := by
    rw [← hcc]
    show destHost (destHost (bs "127.0.0.1") e.host.toList) (argsOf 0x64 os) = _
    unfold destHost
    rw [List.map_append, List.filter_append]
    exact (lastOr_append _ _ _).symm
  have e2 : cc.port = lastOr 7890 ((e.host.toList.filterMap portPart ++ e.port.toList ++ (argsOf 0x64 os).filterMap portPart).filterMap fun p => (atoi p).filter (0 < ·)) := by
    rw [← hcc, List.filterMap_append (l := e.host.toList.filterMap portPart ++ e.port.toList), lastOr_append]; rfl
  have e3 : cc.esc = lastOr 0x26 (e.esc.toList.filterMap List.head? ++ (argsOf 0x65 os).map fun v => v.head?.getD 0) := by
    rw [← hcc, lastOr_append]; rfl
  have e4 : cc.log = (argsOf 0x6C os).getLast? := by
    rw [← hcc]
    show lastOr none ((argsOf 0x6C os).map some) = _
    unfold lastOr
    rw [List.getLast?_map]
    cases (argsOf 0x6C os).getLast? <;> rfl
  have e5 : cc.cmd = (if lastFlag (bs "mq") os = some 0x6D then .monitor else if lastFlag (bs "mq") os = some 0x71 then .query else .connect) := by
    rw [← hcc]
    show (match lastFlag (bs "mq") os with | some x => if x = 0x6D then MsgCmd.monitor else .query | none => .connect) = _
    revert hmq
    cases lastFlag (bs "mq") os with
    | none => intro _; rfl
    | some x =>
      intro hmq
      rcases hmq x rfl with rfl | rfl <;> rfl
  have e6 : cc.force = true ↔ lastFlag (bs "fj") os = some 0x66 := by
    rw [← hcc]
    show ((match lastFlag (bs "fj") os with | some x => decide (x = 0x66) | none => false) = true ↔ _)
    cases lastFlag (bs "fj") os <;> simp
  have e7 : cc.join = true ↔ lastFlag (bs "fj") os = some 0x6A := by
    rw [← hcc]
    show ((match lastFlag (bs "fj") os with | some x => decide (x = 0x6A) | none => false) = true ↔ _)
    cases lastFlag (bs "fj") os <;> simp
  have e8 : cc.bcast = true ↔ COpt.flag 0x62 ∈ os := by
    rw [← hcc]; show ((false || decide (COpt.flag 0x62 ∈ os)) = true ↔ _); simp
  have e9 : cc.quiet = true ↔ COpt.flag 0x51 ∈ os := by
    rw [← hcc]; show ((false || decide (COpt.flag 0x51 ∈ os)) = true ↔ _); simp
  have e10 : cc.regex = true ↔ COpt.flag 0x72 ∈ os := by
    rw [← hcc]; show ((false || decide (COpt.flag 0x72 ∈ os)) = true ↔ _); simp
  have e11 : cc.verbose = true ↔ COpt.flag 0x76 ∈ os := by
    rw [← hcc]; show ((false || decide (COpt.flag 0x76 ∈ os)) = true ↔ _); simp
  have e12 : cc.help = true ↔ COpt.flag 0x68 ∈ os := by
    rw [← hcc]; show ((false || decide (COpt.flag 0x68 ∈ os)) = true ↔ _); simp
  have e13 : cc.consoles = ((argsOf 0x46 os).map fun v => fileNames ((fs v).getD [])).flatten := by
    rw [← hcc, ← hnames]; rfl
  rw [hcomma]
  by_cases hm : cc.cmd = .monitor
  · refine ⟨{ cc with bcast := false, force := false, join := false, consoles := cc.consoles ++ (ps.map commaNames).flatten }, e1, e2, e3, e4, e5,
      by simp [hm], by simp [hm], by simp [hm], e9, e10, e11, by rw [← e13], ?_⟩
    rw [if_pos hm]
    simp only [e12]
  · refine ⟨{ cc with consoles := cc.consoles ++ (ps.map commaNames).flatten }, e1, e2, e3, e4, e5,
      by simp [hm, e6], by simp [hm, e7], by simp [hm, e8], e9, e10, e11, by rw [← e13], ?_⟩
    rw [if_neg hm]
    simp only [e12]

/-- Command lines that mean nothing are refused. -/
theorem C80_refused (fs : List UInt8 → Option (List UInt8)) (e : ClientVars) (args : List (List UInt8)) (h : ¬ ∃ os ps, ArgWords args os ps) :
    ∀ c, clientArgs fs e args ≠ some (.go c) := by
  intro c hc
  have hb : (getopt args).bad ≠ none := fun g => h ⟨_, _, getopt_sound args.length args (Nat.le_refl _) g⟩
  unfold clientArgs clientCmdLine at hc
  cases h1 : clientEnv e clientConf0 with
  | none => rw [h1] at hc; cases hc
  | some c1 =>
    rw [h1, Option.bind_some] at hc
    cases h2 : clientOpts fs c1 (getopt args).opts with
    | none => rw [h2] at hc; cases hc
    | some r =>
      rw [h2, Option.map_some] at hc
      cases r with
      | exit n => cases hc
      | go c2 =>
        cases h3 : (getopt args).bad with
        | none => exact hb h3
        | some x => rw [h3] at hc; cases hc

theorem clientOpts_append (fs) (a b : List COpt) : ∀ (c c' : ClientConf), clientOpts fs c a = some (.go c') → clientOpts fs c (a ++ b) = clientOpts fs c' b := by
  induction a with
  | nil => intro c c' h; rw [← COut.go.inj (Option.some.inj h)]; rfl
  | cons o a ih =>
    intro c c' h
    rw [List.cons_append, clientOpts]
    rw [clientOpts] at h
    cases h1 : clientOpt fs c o with
    | none => rw [h1] at h; cases h
    | some r =>
      rw [h1, Option.bind_some] at h
      rw [Option.bind_some]
      cases r with
      | exit n => cases h
      | go c1 => exact ih c1 c' h

/-- The first option that ends the program does so: `-L` and `-V` with success, a file that cannot be read with failure; what follows, valid or not, does not matter.
If there is none, an option that is not valid ends it with failure. -/
theorem C80_exit (fs : List UInt8 → Option (List UInt8)) (e : ClientVars) (args : List (List UInt8)) (a b : List COpt) (he : clientEnv e clientConf0 ≠ none)
    (hL : COpt.flag 0x4C ∉ a) (hV : COpt.flag 0x56 ∉ a) (hok : ∀ o ∈ a, optOk o) (hp : ∀ v ∈ argsOf 0x64 a, ∀ p, portPart v = some p → atoi p ≠ none)
    (hF : ∀ v ∈ argsOf 0x46 a, fs v ≠ none) :
    (∀ x, (x = 0x4C ∨ x = 0x56) → (getopt args).opts = a ++ .flag x :: b → clientArgs fs e args = some (.exit 0)) ∧
    (∀ f, fs f = none → (getopt args).opts = a ++ .arg 0x46 f :: b → clientArgs fs e args = some (.exit 1)) ∧
    ((¬ ∃ os ps, ArgWords args os ps) → (getopt args).opts = a → clientArgs fs e args = some (.exit 1)) := by
  cases h1 : clientEnv e clientConf0 with
  | none => exact absurd h1 he
  | some c =>
    have h2 := clientOpts_eq fs a c hok hL hV hp hF
    refine ⟨fun x hx h => ?_, fun f hf h => ?_, fun hn h => ?_⟩
    · unfold clientArgs clientCmdLine
      rw [h1, Option.bind_some, h, clientOpts_append fs a _ _ _ h2]
      rcases hx with rfl | rfl <;> rfl
    · unfold clientArgs clientCmdLine
      rw [h1, Option.bind_some, h, clientOpts_append fs a _ _ _ h2, clientOpts, clientOpt, if_neg (by decide), if_neg (by decide), if_pos rfl, hf]
      rfl
    · have hb : (getopt args).bad ≠ none := fun g => hn ⟨_, _, getopt_sound args.length args (Nat.le_refl _) g⟩
      unfold clientArgs clientCmdLine
      rw [h1, Option.bind_some, h, h2]
      cases h3 : (getopt args).bad with
      | none => exact absurd h3 hb
      | some x => rfl

theorem readNames_ne (n : Nat) : ∀ s : List UInt8, ∀ l ∈ readNames n s, l ≠ [] := by
  induction n with
  | zero => intro s l hl; cases hl
  | succ n ih =>
    intro s l hl
    rw [readNames] at hl
    split at hl
    · cases hl
    · rcases List.mem_append.mp hl with g | g
      · unfold fileLine at g
        simp only at g
        split at g
        · cases g
        · rename_i hx
          rw [List.mem_singleton.mp g]
          exact fun e => hx (Or.inr e)
      · exact ih _ l g

/-- What holds after any option. -/
def ConfInv (c : ClientConf) : Prop := ¬ (c.force = true ∧ c.join = true) ∧ 0 < c.port ∧ ∀ n ∈ c.consoles, n ≠ []

theorem setDest_inv {c c' : ClientConf} {v : List UInt8} (h : ConfInv c) (e : setDest c v = some c') : ConfInv c' := by
  unfold setDest at e
  obtain ⟨c1, h1, h2⟩ := Option.map_eq_some_iff.mp e
  have : ConfInv c1 := by
    split at h1
    · obtain ⟨i, _, h3⟩ := Option.map_eq_some_iff.mp h1
      rw [← h3]
      split
      · rename_i hi; exact ⟨h.1, hi, h.2.2⟩
      · exact h
    · rw [← Option.some.inj h1]; exact h
  rw [← h2]
  split
  · exact ⟨this.1, this.2.1, this.2.2⟩
  · exact this

theorem clientOpt_inv {fs} {c c' : ClientConf} {o : COpt} (h : ConfInv c) (e : clientOpt fs c o = some (.go c')) : ConfInv c' := by
  cases o with
  | flag x =>
    rw [clientOpt] at e
    repeat' split at e
    all_goals first
      | (cases e; done)
      | (rw [← COut.go.inj (Option.some.inj e)]
         first
          | exact ⟨h.1, h.2.1, h.2.2⟩
          | exact ⟨(by simp), h.2.1, h.2.2⟩)
  | arg x v =>
    rw [clientOpt] at e
    split at e
    · obtain ⟨c1, h1, h2⟩ := Option.map_eq_some_iff.mp e
      rw [← COut.go.inj h2]
      exact setDest_inv h h1
    · split at e
      · rw [← COut.go.inj (Option.some.inj e)]; exact ⟨h.1, h.2.1, h.2.2⟩
      · split at e
        · split at e
          · cases e
          · rw [← COut.go.inj (Option.some.inj e)]
            refine ⟨h.1, h.2.1, fun n hn => ?_⟩
            rcases List.mem_append.mp hn with g | g
            · exact h.2.2 n g
            · exact readNames_ne _ _ n g
        · split at e
          · rw [← COut.go.inj (Option.some.inj e)]; exact ⟨h.1, h.2.1, h.2.2⟩
          · cases e

theorem clientOpts_inv {fs} (os : List COpt) : ∀ {c c' : ClientConf}, ConfInv c → clientOpts fs c os = some (.go c') → ConfInv c' := by
  induction os with
  | nil => intro c c' h e; rw [← COut.go.inj (Option.some.inj e)]; exact h
  | cons o os ih =>
    intro c c' h e
    rw [clientOpts] at e
    cases h1 : clientOpt fs c o with
    | none => rw [h1] at e; cases e
    | some r =>
      rw [h1, Option.bind_some] at e
      cases r with
      | exit n => cases e
      | go c1 => exact ih (clientOpt_inv h h1) e

theorem clientEnv_inv {e : ClientVars} {c c' : ClientConf} (h : ConfInv c) (he : clientEnv e c = some c') : ConfInv c' := by
  unfold clientEnv at he
  obtain ⟨c1, h1, h2⟩ := Option.bind_eq_some_iff.mp he
  obtain ⟨c2, h3, h4⟩ := Option.map_eq_some_iff.mp h2
  have i1 : ConfInv c1 := by
    unfold envHost at h1
    split at h1
    · exact setDest_inv h h1
    · rw [← Option.some.inj h1]; exact h
  have i2 : ConfInv c2 := by
    unfold envPort at h3
    split at h3
    · split at h3
      · obtain ⟨i, _, h3⟩ := Option.map_eq_some_iff.mp h3
        rw [← h3]
        split
        · rename_i hi; exact ⟨i1.1, hi, i1.2.2⟩
        · exact i1
      · rw [← Option.some.inj h3]; exact i1
    · rw [← Option.some.inj h3]; exact i1
  rw [← h4]
  unfold envEsc
  split
  · exact ⟨i2.1, i2.2.1, i2.2.2⟩
  · exact i2

/-- Whatever the command line, the environment and the files: a client that goes on does not ask for both force and join, asks for neither, nor for broadcast, when it
monitors, has a name unless it asks for the list, has no empty name, and a port above zero. -/
theorem C80_always (fs : List UInt8 → Option (List UInt8)) (e : ClientVars) (args : List (List UInt8)) (c : ClientConf) (h : clientArgs fs e args = some (.go c)) :
    ¬ (c.force = true ∧ c.join = true) ∧ (c.cmd = .monitor → c.force = false ∧ c.join = false ∧ c.bcast = false) ∧
    (c.cmd ≠ .query → c.consoles ≠ []) ∧ (∀ n ∈ c.consoles, n ≠ []) ∧ 0 < c.port := by
  unfold clientArgs clientCmdLine at h
  obtain ⟨c1, h1, h⟩ := Option.bind_eq_some_iff.mp h
  obtain ⟨r, h2, h⟩ := Option.map_eq_some_iff.mp h
  have i1 : ConfInv c1 := clientEnv_inv (c := clientConf0) ⟨by decide, by decide, (by intro n hn; cases hn)⟩ h1
  cases r with
  | exit n => cases h
  | go c2 =>
    have i2 : ConfInv c2 := clientOpts_inv _ i1 h2
    simp only at h
    have names : ∀ n ∈ c2.consoles ++ ((getopt args).operands.map fun a => commaLoop (a.length + 1) a).flatten, n ≠ [] := by
      intro n hn
      rcases List.mem_append.mp hn with g | g
      · exact i2.2.2 n g
      · obtain ⟨l, hl, hn⟩ := List.mem_flatten.mp g
        obtain ⟨a, _, e⟩ := List.mem_map.mp hl
        rw [← e, C80_comma] at hn
        unfold commaNames at hn
        simpa using (List.mem_filter.mp hn).2
    split at h
    · cases h
    · by_cases hm : c2.cmd = .monitor
      · rw [if_pos hm] at h
        split at h
        · cases h
        · rename_i hx
          rw [not_or, not_and] at hx
          rw [← COut.go.inj h]
          exact ⟨by simp, fun _ => ⟨rfl, rfl, rfl⟩, hx.2, names, i2.2.1⟩
      · rw [if_neg hm] at h
        split at h
        · cases h
        · rename_i hx
          rw [not_or, not_and] at hx
          rw [← COut.go.inj h]
          exact ⟨i2.1, fun g => absurd g hm, hx.2, names, i2.2.1⟩

/-- What the client asks for arrives: the daemon that reads the request does what the command line says. -/
theorem C80_arrives (fs : List UInt8 → Option (List UInt8)) (e : ClientVars) (args : List (List UInt8)) (c : ClientConf) (size : Nat)
    (h : clientArgs fs e args = some (.go c)) (h0 : 0 < size) (hn : ∀ n ∈ c.consoles, Plain n) :
    ∃ msg, request size c.req = some (if msg.length < size then some msg else none) ∧ (msg.length < size →
      ∀ (sched : List Sys) (more buf : List UInt8) (res : LineRes) (m : Nat), size ≤ buf.length →
        readLine sched (msg ++ more) buf size = some res → res.fin = .ret m →
        recvReq res.buf {} = some {
          cmd := some c.cmd, quiet := c.quiet, regex := c.regex, force := c.force && (c.cmd = .connect), join := c.join && (c.cmd = .connect),
          bcast := c.bcast && (c.cmd = .connect), consoles := c.consoles }) := by
  obtain ⟨msg, q1, q2⟩ := C18_request size c.req h0 hn
  refine ⟨msg, q1, fun hlen sched more buf res m hbuf hres hm => ?_⟩
  have := (q2 hlen sched more buf res m {} hbuf hres hm ⟨rfl, rfl, rfl, rfl, rfl, rfl⟩).2.2
  have hf : c.consoles.filter (· ≠ []) = c.consoles := by
    rw [List.filter_eq_self]
    intro n hn
    simpa using (C80_always fs e args c h).2.2.2.1 n hn
  rw [this]
  show some { ({} : SrvReq) with
    cmd := some c.cmd, quiet := c.quiet, regex := c.regex, force := c.force && decide (c.cmd = MsgCmd.connect), join := c.join && decide (c.cmd = MsgCmd.connect),
    bcast := c.bcast && decide (c.cmd = MsgCmd.connect), consoles := c.consoles.filter (· ≠ []) } = _
  rw [hf]

theorem strip_hash (t : List UInt8) : (strip (0x23 :: t)).head? = some 0x23 := by
  have e : strip (0x23 :: t) = rtrim (0x23 :: t) := by
    unfold strip
    rw [show (0x23 :: t).dropWhile blankByte = 0x23 :: t from List.dropWhile_cons_of_neg (by decide), blank_fun]
    rfl
  rw [e]
  unfold rtrim
  rw [List.reverse_cons, List.dropWhile_append]
  split
  · rw [List.dropWhile_cons_of_neg (by decide)]; rfl
  · rw [List.reverse_append]; rfl

theorem pieces_one {t : List UInt8} (ht : (0x0A : UInt8) ∉ t) : pieces 0x0A t = [t] := by
  rw [pieces_eq, if_neg ht, (takeWhile_every fun c hc => ?_).1]
  have : c ≠ 0x0A := fun e => ht (e ▸ hc)
  simpa using this

theorem fgetsTake_full (k : Nat) (a t : List UInt8) (ha : (0x0A : UInt8) ∉ a) (h : a.length = k) : fgetsTake k (a ++ t) = a := by
  induction a generalizing k with
  | nil => rw [← h]; rfl
  | cons x a ih =>
    rw [← h, List.length_cons, List.cons_append, fgetsTake, if_neg (fun e => ha (by rw [e]; simp)), ih a.length (fun g => ha (by simp [g])) rfl]

/-- Longer lines are cut: what follows the first 1023 bytes of a line counts as another line, even of a comment. -/
theorem C80_long_line (comment name : List UInt8) (hc : comment.length = 1022) (hc0 : (0 : UInt8) ∉ comment) (hcn : (0x0A : UInt8) ∉ comment)
    (h0 : (0 : UInt8) ∉ name) (hn : (0x0A : UInt8) ∉ name) (hl : name.length ≤ 1022) (hs : strip name = name) (h1 : name ≠ []) (h2 : name.head? ≠ some 0x23) :
    fileNames (0x23 :: (comment ++ name)) = [] ∧ readNames ((0x23 :: (comment ++ name)).length + 1) (0x23 :: (comment ++ name)) = [name] := by
  have ha0 : (0 : UInt8) ∉ 0x23 :: comment := fun g => by
    rcases List.mem_cons.mp g with g | g
    · cases g
    · exact hc0 g
  have han : (0x0A : UInt8) ∉ 0x23 :: comment := fun g => by
    rcases List.mem_cons.mp g with g | g
    · cases g
    · exact hcn g
  constructor
  · unfold fileNames
    rw [pieces_one (by
      intro g
      rcases List.mem_append.mp (show (0x0A : UInt8) ∈ (0x23 :: comment) ++ name from g) with g | g
      · exact han g
      · exact hn g)]
    simp [strip_hash]
  · have e1 : fgetsTake (maxLine - 1) (0x23 :: (comment ++ name)) = 0x23 :: comment :=
      fgetsTake_full (maxLine - 1) (0x23 :: comment) name han (by rw [List.length_cons, hc]; decide)
    have e2 : (0x23 :: (comment ++ name)).drop (0x23 :: comment).length = name := List.drop_left (l₁ := 0x23 :: comment) (l₂ := name)
    have e3 : fileLine (0x23 :: comment) = [] := by
      rw [fileLine_eq ha0]
      simp [strip_hash]
    rw [readNames, if_neg (List.cons_ne_nil _ _), e1, e2, e3, List.nil_append, readNames_eq _ name (by rw [List.length_cons, List.length_append]; omega) h0 (by
      intro l hx
      rw [pieces_one hn] at hx
      rw [List.mem_singleton.mp hx]
      exact hl)]
    unfold fileNames
    rw [pieces_one hn]
    simp [hs, h1, h2]

/-- A port above 65535 is not refused: another port is connected to. -/
theorem C80_port_wraps (fs : List UInt8 → Option (List UInt8)) : ∃ c, clientArgs fs {} [bs "-d", bs "h:65559", bs "c"] = some (.go c) ∧ c.port = 65559 ∧ c.tcpPort = 23 := by
  refine ⟨_, rfl, ?_, ?_⟩ <;> decide +kernel

/-- What stands behind the colon and is no number is ignored: the default port is used. -/
theorem C80_port_ignored (fs : List UInt8 → Option (List UInt8)) : ∃ c, clientArgs fs {} [bs "-d", bs "h:telnet", bs "c"] = some (.go c) ∧ c.port = 7890 := by
  refine ⟨_, rfl, ?_⟩; decide +kernel

/-! Cases that meet the hypotheses. -/

def exNames : List UInt8 → Option (List UInt8) := fun f => if f = bs "list" then some (bs " n1 \n# no\n\n\tn2,x") else none

example : ∃ c, clientArgs exNames { host := some (bs "top:1000"), port := some (bs "2000"), esc := some (bs "^x") }
      [bs "-vjd", bs ":3000", bs "a,b,,c", bs "-Ff", bs "x"] = some c ∧ c = .exit 1 := ⟨_, rfl, by decide +kernel⟩

example : clientArgs exNames { host := some (bs "top:1000"), port := some (bs "2000"), esc := some (bs "^x") }
      [bs "-vjd", bs ":3000", bs "a,b,,c", bs "-fF", bs "list", bs "--", bs "-q"] =
    some (.go { host := bs "top", port := 3000, esc := 0x5E, force := true, verbose := true, consoles := [bs "n1", bs "n2,x", bs "a", bs "b", bs "c", bs "-q"] }) := by
  decide +kernel

example : ArgWords [bs "-vjd", bs ":3000", bs "a,b", bs "-fFlist", bs "--", bs "-q"]
    [.flag 0x76, .flag 0x6A, .arg 0x64 (bs ":3000"), .flag 0x66, .arg 0x46 (bs "list")] [bs "a,b", bs "-q"] :=
  (C80_getopt _ _ _).mp (by decide +kernel)

example : (getopt [bs "-vV", bs "-x"]).opts = [.flag 0x76] ++ .flag 0x56 :: [] ∧ clientArgs exNames {} [bs "-vV", bs "-x"] = some (.exit 0) ∧
    (getopt [bs "-vx"]).opts = [.flag 0x76] ∧ clientArgs exNames {} [bs "-F", bs "none", bs "-V"] = some (.exit 1) := by decide +kernel

example : ¬ ∃ os ps, ArgWords [bs "-x"] os ps := by
  rintro ⟨os, ps, h⟩
  have := (C80_getopt _ _ _).mpr h
  have h2 : (getopt [bs "-x"]).bad = some 0x78 := by decide
  rw [this] at h2
  cases h2

example : clientArgs exNames {} [bs "-m", bs "-b", bs "c", bs "-f"] = some (.go { host := bs "127.0.0.1", port := 7890, esc := 0x26, cmd := .monitor, consoles := [bs "c"] }) ∧
    clientArgs exNames {} [bs "-m"] = some (.exit 0) ∧ clientArgs exNames {} [bs "-q"] = some (.go { host := bs "127.0.0.1", port := 7890, esc := 0x26, cmd := .query }) := by
  decide +kernel

example : strip (bs "rm") = bs "rm" ∧ fileNames (bs "a\n#b\n c \n") = [bs "a", bs "c"] := by decide +kernel

end Conman
