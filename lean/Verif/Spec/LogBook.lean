import Verif.Spec.Flow
import Verif.Spec.Telnet
import Verif.Spec.Log

/-
Vocabulary for the statements about what gets into the log of a console (C92).
-/
namespace Conman

/-- What gets into a log: output of the console, or a notice of the daemon. -/
inductive LogEv where
  | out (d : List UInt8)
  | note (t : List UInt8)
deriving Repr, DecidableEq

/-- The bytes of an entry. -/
def LogEv.bytes : LogEv → List UInt8
  | .out d => d
  | .note t => t

/-- The console output in a list of entries. -/
def logOuts (evs : List LogEv) : List UInt8 := evs.flatMap (fun e => match e with | .out d => d | .note _ => [])

/-- The text of the entries: output is processed as the options of the log say (C38, C39), a notice is written as it is, and what
follows it starts a new line. -/
def logBook (o : LogOpts) (clk : Nat → List UInt8) : LineState → Nat → List LogEv → Option (LineState × Nat × List UInt8)
  | st, k, [] => some (st, k, [])
  | st, k, .out d :: es =>
    match logChunks o clk st k [d] with
    | none => none
    | some (st, k, t) => (logBook o clk st k es).map (fun r => (r.1, r.2.1, t ++ r.2.2))
  | _, k, .note t :: es =>
    (logBook o clk .init k es).map (fun r => (r.1, r.2.1, t ++ r.2.2))

/-- The notices among the entries are messages of the daemon. -/
def NotesOk (env : Env) (evs : List LogEv) : Prop := ∀ t, .note t ∈ evs → ∃ n k, t = env.txt n k

/-- What a console says in a step: what is read from it, without the telnet protocol if it is a telnet console. -/
def said (w : World) (con : Nat) : Step → List UInt8
  | .poll i _ (some (.data d)) _ =>
    if i = con ∧ ((w.obj con).pin = true ∨ (w.obj con).pout = true) then
      if (w.obj con).kind = .telnet then
        if (w.obj con).conn = .up then
          match telChunks (w.obj con).iac [d] with
          | some (_, app, _) => app
          | none => []
        else []
      else d
    else []
  | _ => []

/-- The same for a history. -/
def saidAll (env : Env) (w : World) (con : Nat) : List Step → List UInt8
  | [] => []
  | s :: ss =>
    said w con s ++
    match w.step env s with
    | none => []
    | some w => saidAll env { w with tick := w.tick + 1 } con ss

/-- The buffer of `l` is not full after any step. -/
def neverFull (env : Env) (w : World) (l : Nat) : List Step → Bool
  | [] => true
  | s :: ss =>
    match w.step env s with
    | none => true
    | some w => decide ((w.obj l).pend.length < Spec.queueCap) && neverFull env { w with tick := w.tick + 1 } l ss

/-- Notices are not empty and fit into a buffer (C49: they have less than 1024 bytes); a time stamp is `YYYY-MM-DD HH:MM:SS `. -/
structure LogEnv (env : Env) : Prop where
  txt : ∀ n k, env.txt n k ≠ [] ∧ (env.txt n k).length ≤ Spec.queueCap
  clk : ∀ l k, (env.clk l k).length = 20

/-- `l` is the log of the console `con`: it gets data from it and from nobody else. -/
structure LogOf (w : World) (l con : Nat) : Prop where
  kind : (w.obj l).kind = .logfile
  wr : ∀ a, l ∈ (w.obj a).readers ↔ a = con

/-! ### The text of a log -/

/-- Number of stamps taken when text and line ends are laid out. -/
def stampCount (ts : Bool) : Bool → List (Option UInt8) → Nat
  | _, [] => 0
  | bol, x :: xs => (if ts && bol then 1 else 0) + stampCount ts (x == none) xs

/-- What a log shows for the output `s` of a console, from the start of a line on (C39). -/
def logLines (o : LogOpts) (clk : Nat → List UInt8) (k : Nat) (s : List UInt8) : List UInt8 :=
  Spec.layout (if o.sanitize then Spec.sanByte else fun b => [b]) o.timestamp clk true k (Spec.normLines s) ++
    if s ≠ [] ∧ Spec.normLines s = [] ∧ o.timestamp = true then clk k else []

/-- Number of stamps in that. -/
def logStamps (o : LogOpts) (s : List UInt8) : Nat :=
  if o.timestamp = true ∧ s ≠ [] ∧ Spec.normLines s = [] then 1 else stampCount o.timestamp true (Spec.normLines s)

/-- The text of a processed log: the output between two notices is laid out in lines, the notices stand as they are.
`acc` is output since the last notice, `k` the number of stamps before it. -/
def logPage (o : LogOpts) (clk : Nat → List UInt8) : Nat → List UInt8 → List LogEv → List UInt8
  | k, acc, [] => logLines o clk k acc
  | k, acc, .out d :: es => logPage o clk k (acc ++ d) es
  | k, acc, .note t :: es => logLines o clk k acc ++ t ++ logPage o clk (k + logStamps o acc) [] es

end Conman
