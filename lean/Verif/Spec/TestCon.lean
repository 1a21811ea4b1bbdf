import Verif.Spec.Opts

/-
Test consoles.
-/
namespace Conman
namespace Spec

/-- The bytes of a test console, from the first: `!` to `~` again and again. -/
def patternByte (i : Nat) : UInt8 := UInt8.ofNat (0x21 + i % 94)

/-- The pause (in ms) after a burst: within the interval configured; the longest if no shortest is given or it is not shorter; 100 if nothing is given. -/
def Gap (o : TestOpt) (d : Int) : Prop :=
  if o.msecMax < 0 then d = 100
  else if o.msecMin < 0 ∨ o.msecMin ≥ o.msecMax then d = o.msecMax
  else o.msecMin ≤ d ∧ d ≤ o.msecMax

/-- A history of reads, each with its data and the pause after it: bursts of the configured size, cut into reads of 8191 bytes without pause, and reads
without data; at the end a burst may be unfinished.  A probability of 0 means no bursts, one of 100 means no reads without data. -/
inductive Bursts (o : TestOpt) : List (List UInt8 × Int) → Prop
  | nil : Bursts o []
  | quiet (d : Int) (rest : List (List UInt8 × Int)) (hp : o.probability < 100) (hd : Gap o d) (h : Bursts o rest) : Bursts o (([], d) :: rest)
  | burst (cs : List (List UInt8)) (last : List UInt8) (d : Int) (rest : List (List UInt8 × Int)) (hp : 0 < o.probability) (hc : ∀ c ∈ cs, c.length = 8191)
      (hl : last.length ≤ 8191) (hne : last ≠ [] ∨ cs = []) (hn : (8191 * cs.length + last.length : Int) = o.numBytes) (hd : Gap o d) (h : Bursts o rest) :
      Bursts o (cs.map (·, (0 : Int)) ++ (last, d) :: rest)
  | unfinished (cs : List (List UInt8)) (hp : 0 < o.probability) (hc : ∀ c ∈ cs, c.length = 8191) (hn : (8191 * cs.length : Int) < o.numBytes) :
      Bursts o (cs.map (·, (0 : Int)))

end Spec
end Conman
