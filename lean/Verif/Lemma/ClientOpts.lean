import Verif.Lemma.ClientArgs

/-
The options of the client: what they amount to.
-/
namespace Conman
open Spec

/-- Ports that are given: positive numbers. -/
def goodPorts (l : List (List UInt8)) : List Int := l.filterMap fun p => (atoi p).filter (0 < ·)

theorem lastOr_cons {α : Type} (d a : α) (l : List α) : lastOr d (a :: l) = lastOr a l := by
  unfold lastOr
  rw [List.getLast?_cons]
  rfl

theorem lastOr_append {α : Type} (d : α) (l m : List α) : lastOr d (l ++ m) = lastOr (lastOr d l) m := by
  induction l generalizing d with
  | nil => rfl
  | cons a l ih => rw [List.cons_append, lastOr_cons, lastOr_cons, ih]

def lastPort (d : Int) (l : List (List UInt8)) : Int := lastOr d (goodPorts l)

/-- What options amount to. -/
def optsConf (fs : List UInt8 → Option (List UInt8)) (c : ClientConf) (os : List COpt) : ClientConf where
  host := destHost c.host (argsOf 0x64 os)
  port := lastPort c.port ((argsOf 0x64 os).filterMap portPart)
  esc := lastOr c.esc ((argsOf 0x65 os).map fun v => v.head?.getD 0)
  log := lastOr c.log ((argsOf 0x6C os).map some)
  cmd := match lastFlag (bs "mq") os with | some x => if x = 0x6D then .monitor else .query | none => c.cmd
  bcast := c.bcast || decide (.flag 0x62 ∈ os)
  force := match lastFlag (bs "fj") os with | some x => decide (x = 0x66) | none => c.force
  join := match lastFlag (bs "fj") os with | some x => decide (x = 0x6A) | none => c.join
  quiet := c.quiet || decide (.flag 0x51 ∈ os)
  regex := c.regex || decide (.flag 0x72 ∈ os)
  verbose := c.verbose || decide (.flag 0x76 ∈ os)
  help := c.help || decide (.flag 0x68 ∈ os)
  consoles := c.consoles ++ ((argsOf 0x46 os).map fun v => readNames (((fs v).getD []).length + 1) ((fs v).getD [])).flatten

theorem lastFlag_cons (cs : List UInt8) (o : COpt) (os : List COpt) : lastFlag cs (o :: os) =
    match lastFlag cs os with
    | some y => some y
    | none => match o with | .flag x => if x ∈ cs then some x else none | .arg _ _ => none := by
  unfold lastFlag
  cases o with
  | flag x =>
    by_cases h : x ∈ cs
    · simp only [List.filterMap_cons, h, if_true]
      rw [List.getLast?_cons]
      generalize (List.getLast? _) = z
      cases z <;> rfl
    · simp only [List.filterMap_cons, h, if_false]
      generalize (List.getLast? _) = z
      cases z <;> rfl
  | arg x v =>
    simp only [List.filterMap_cons]
    generalize (List.getLast? _) = z
    cases z <;> rfl

theorem argsOf_flag (c x : UInt8) (os : List COpt) : argsOf c (.flag x :: os) = argsOf c os := rfl

theorem argsOf_arg (c x : UInt8) (v : List UInt8) (os : List COpt) : argsOf c (.arg x v :: os) = if x = c then v :: argsOf c os else argsOf c os := by
  unfold argsOf
  by_cases h : x = c <;> simp [h]

theorem mem_flag (x y : UInt8) (os : List COpt) : (COpt.flag x ∈ COpt.flag y :: os) ↔ x = y ∨ COpt.flag x ∈ os := by
  rw [List.mem_cons, COpt.flag.injEq]

theorem mem_arg (x y : UInt8) (v : List UInt8) (os : List COpt) : (COpt.flag x ∈ COpt.arg y v :: os) ↔ COpt.flag x ∈ os := by
  rw [List.mem_cons]
  constructor
  · rintro (h | h)
    · cases h
    · exact h
  · exact Or.inr

theorem destHost_cons (d v : List UInt8) (l : List (List UInt8)) : destHost d (v :: l) = destHost (if hostPart v ≠ [] then hostPart v else d) l := by
  unfold destHost
  by_cases h : hostPart v = []
  · simp [h]
  · rw [List.map_cons, List.filter_cons_of_pos (by simpa using h), if_pos h]
    exact lastOr_cons _ _ _

theorem lastPort_none (d : Int) (v : List UInt8) (l : List (List UInt8)) (h : portPart v = none) :
    lastPort d ((v :: l).filterMap portPart) = lastPort d (l.filterMap portPart) := by
  rw [List.filterMap_cons, h]

theorem lastPort_cons (d i : Int) (p : List UInt8) (l : List (List UInt8)) (h : atoi p = some i) :
    lastPort d (p :: l) = lastPort (if 0 < i then i else d) l := by
  unfold lastPort goodPorts
  rw [List.filterMap_cons, h]
  by_cases g : 0 < i
  · simp only [Option.filter, g, decide_true, if_true]
    exact lastOr_cons _ _ _
  · simp [Option.filter, g]

/-- A destination. -/
theorem setDest_eq (c : ClientConf) (v : List UInt8) (h : ∀ p, portPart v = some p → atoi p ≠ none) :
    setDest c v = some { c with host := if hostPart v ≠ [] then hostPart v else c.host, port := lastPort c.port ([v].filterMap portPart) } := by
  unfold setDest
  by_cases hc : (0x3A : UInt8) ∈ v
  · have hp : portPart v = some ((v.dropWhile (· ≠ 0x3A)).drop 1) := by unfold portPart; rw [if_pos hc]
    have := h _ hp
    cases e : atoi ((v.dropWhile (· ≠ 0x3A)).drop 1) with
    | none => exact absurd e this
    | some i =>
      rw [if_pos hc]
      have e2 : [v].filterMap portPart = [(v.dropWhile (· ≠ 0x3A)).drop 1] := by rw [List.filterMap_cons, hp]; rfl
      rw [e2, lastPort_cons _ i _ _ e]
      unfold hostPart
      have e3 : ∀ d, lastPort d [] = d := fun d => rfl
      rw [e3]
      simp only [Option.map_some]
      by_cases g : 0 < i <;> by_cases k : v.takeWhile (· ≠ 0x3A) = [] <;> simp only [g, k, if_true, if_false, ne_eq, not_true_eq_false, not_false_eq_true]
  · have hp : portPart v = none := by unfold portPart; rw [if_neg hc]
    rw [if_neg hc]
    have e2 : [v].filterMap portPart = [] := by rw [List.filterMap_cons, hp]; rfl
    rw [e2]
    have e3 : ∀ d, lastPort d [] = d := fun d => rfl
    rw [e3]
    unfold hostPart
    simp only [Option.map_some]
    by_cases k : v.takeWhile (· ≠ 0x3A) = [] <;> simp only [k, if_true, if_false, ne_eq, not_true_eq_false, not_false_eq_true]

/-- Options that can occur. -/
def optOk : COpt → Prop
  | .flag c => c ∈ cFlags
  | .arg c _ => c ∈ cArgs

theorem argWords_ok {args os ps} (h : ArgWords args os ps) : ∀ o ∈ os, optOk o := by
  induction h with
  | nil => simp
  | stop r => simp
  | operand a r os ps _ _ ih => exact ih
  | flags cs r os ps ne hc _ ih =>
    intro o ho
    rcases List.mem_append.mp ho with g | g
    · obtain ⟨c, hc', e⟩ := List.mem_map.mp g
      rw [← e]; exact hc c hc'
    · exact ih o g
  | attached cs c v r os ps hc hx _ _ ih =>
    intro o ho
    rcases List.mem_append.mp ho with g | g
    · obtain ⟨c, hc', e⟩ := List.mem_map.mp g
      rw [← e]; exact hc c hc'
    · rcases List.mem_cons.mp g with e | g
      · rw [e]; exact hx
      · exact ih o g
  | separate cs c v r os ps hc hx _ ih =>
    intro o ho
    rcases List.mem_append.mp ho with g | g
    · obtain ⟨c, hc', e⟩ := List.mem_map.mp g
      rw [← e]; exact hc c hc'
    · rcases List.mem_cons.mp g with e | g
      · rw [e]; exact hx
      · exact ih o g

theorem optsConf_flag (fs) (c : ClientConf) (x : UInt8) (os) (h : x ∈ cFlags) (h1 : x ≠ 0x4C) (h2 : x ≠ 0x56) :
    ∃ c', clientOpt fs c (.flag x) = some (.go c') ∧ optsConf fs c (.flag x :: os) = optsConf fs c' os := by
  have hx : x = 0x62 ∨ x = 0x66 ∨ x = 0x68 ∨ x = 0x6A ∨ x = 0x6D ∨ x = 0x71 ∨ x = 0x51 ∨ x = 0x72 ∨ x = 0x76 := by
    have : ∀ x ∈ cFlags, x ≠ 0x4C → x ≠ 0x56 → x = 0x62 ∨ x = 0x66 ∨ x = 0x68 ∨ x = 0x6A ∨ x = 0x6D ∨ x = 0x71 ∨ x = 0x51 ∨ x = 0x72 ∨ x = 0x76 := by decide
    exact this x h h1 h2
  rcases hx with rfl | rfl | rfl | rfl | rfl | rfl | rfl | rfl | rfl
  all_goals
    refine ⟨_, rfl, ?_⟩
    unfold optsConf
    simp only [lastFlag_cons, argsOf_flag, mem_flag, ClientConf.mk.injEq, true_and, and_true]
    rw [show bs "mq" = [0x6D, 0x71] from rfl, show bs "fj" = [0x66, 0x6A] from rfl]
    generalize lastFlag [0x6D, 0x71] os = y
    generalize lastFlag [0x66, 0x6A] os = z
    cases y <;> cases z <;> simp

theorem optsConf_arg (fs) (c : ClientConf) (x : UInt8) (v : List UInt8) (os) (h : x ∈ cArgs) (h1 : x = 0x64 → ∀ p, portPart v = some p → atoi p ≠ none) (h2 : x = 0x46 → fs v ≠ none) :
    ∃ c', clientOpt fs c (.arg x v) = some (.go c') ∧ optsConf fs c (.arg x v :: os) = optsConf fs c' os := by
  have hx : x = 0x64 ∨ x = 0x65 ∨ x = 0x46 ∨ x = 0x6C := by
    have : ∀ x ∈ cArgs, x = 0x64 ∨ x = 0x65 ∨ x = 0x46 ∨ x = 0x6C := by decide
    exact this x h
  have hl : ∀ cs, lastFlag cs (.arg x v :: os) = lastFlag cs os := by
    intro cs
    rw [lastFlag_cons]
    cases lastFlag cs os <;> rfl
  rcases hx with rfl | rfl | rfl | rfl
  · refine ⟨{ c with host := if hostPart v ≠ [] then hostPart v else c.host, port := lastPort c.port ([v].filterMap portPart) }, ?_, ?_⟩
    · rw [clientOpt, if_pos rfl, setDest_eq c v (h1 rfl)]; rfl
    · have e : lastPort c.port ((v :: argsOf 0x64 os).filterMap portPart) = lastPort (lastPort c.port ([v].filterMap portPart)) ((argsOf 0x64 os).filterMap portPart) := by
        cases hp : portPart v with
        | none => rw [lastPort_none _ _ _ hp, lastPort_none _ _ _ hp]; rfl
        | some p =>
          have := h1 rfl p hp
          cases ha : atoi p with
          | none => exact absurd ha this
          | some i =>
            rw [List.filterMap_cons, hp, List.filterMap_cons, hp]
            simp only [List.filterMap_nil]
            rw [lastPort_cons _ i _ _ ha, lastPort_cons _ i _ _ ha]
            rfl
      unfold optsConf
      simp only [hl, argsOf_arg, mem_arg, if_true, destHost_cons, e]
      rfl
  · refine ⟨_, rfl, ?_⟩
    unfold optsConf
    simp only [hl, argsOf_arg, mem_arg, if_true, List.map_cons, lastOr_cons]
    rfl
  · cases hf : fs v with
    | none => exact absurd hf (h2 rfl)
    | some s =>
      refine ⟨{ c with consoles := c.consoles ++ readNames (s.length + 1) s }, ?_, ?_⟩
      · rw [clientOpt, if_neg (by decide), if_neg (by decide), if_pos rfl, hf]
      · unfold optsConf
        simp only [hl, argsOf_arg, mem_arg, if_true, List.map_cons, List.flatten_cons, hf, Option.getD_some, List.append_assoc]
        rfl
  · refine ⟨_, rfl, ?_⟩
    unfold optsConf
    simp only [hl, argsOf_arg, mem_arg, if_true, List.map_cons, lastOr_cons]
    rfl

theorem clientOpts_eq (fs) (os : List COpt) : ∀ (c : ClientConf), (∀ o ∈ os, optOk o) → .flag 0x4C ∉ os → .flag 0x56 ∉ os →
    (∀ v ∈ argsOf 0x64 os, ∀ p, portPart v = some p → atoi p ≠ none) → (∀ v ∈ argsOf 0x46 os, fs v ≠ none) →
    clientOpts fs c os = some (.go (optsConf fs c os)) := by
  induction os with
  | nil =>
    intro c _ _ _ _ _
    rw [clientOpts]
    congr 2
    unfold optsConf
    simp [destHost, argsOf, lastPort, goodPorts, lastOr, lastFlag]
  | cons o os ih =>
    intro c h1 h2 h3 h4 h5
    have step : ∃ c', clientOpt fs c o = some (.go c') ∧ optsConf fs c (o :: os) = optsConf fs c' os := by
      cases o with
      | flag x => exact optsConf_flag fs c x os (h1 (.flag x) (by simp)) (fun e => h2 (by rw [e]; simp)) (fun e => h3 (by rw [e]; simp))
      | arg x v =>
        refine optsConf_arg fs c x v os (h1 (.arg x v) (by simp)) (fun e => ?_) (fun e => ?_)
        · exact h4 v (by rw [argsOf_arg, if_pos e]; simp)
        · exact h5 v (by rw [argsOf_arg, if_pos e]; simp)
    obtain ⟨c', q1, q2⟩ := step
    rw [clientOpts, q1, q2]
    have hsub : ∀ k v, v ∈ argsOf k os → v ∈ argsOf k (o :: os) := by
      intro k v hv
      cases o with
      | flag x => exact hv
      | arg x w =>
        rw [argsOf_arg]
        split
        · exact List.mem_cons_of_mem _ hv
        · exact hv
    exact ih c' (fun o ho => h1 o (by simp [ho])) (fun e => h2 (by simp [e])) (fun e => h3 (by simp [e])) (fun v hv => h4 v (hsub _ v hv)) (fun v hv => h5 v (hsub _ v hv))

end Conman
