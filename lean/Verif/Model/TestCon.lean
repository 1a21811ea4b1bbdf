import Verif.Spec.TestCon

/-
Test consoles: src/server-test.c:184-355.

The results of `rand()` are inputs.  Delivery of the data to the readers is in the model of the daemon (`World`).
-/
namespace Conman

/-- The test part of a console, src/server.h:226-239. -/
structure TestCon where
  opts : TestOpt
  numLeft : Int
  lastChar : UInt8
deriving DecidableEq, Repr

/-- `create_test_obj`, src/server-test.c:214-218. -/
def createTest (o : TestOpt) : TestCon := ⟨o, 0, 0x20⟩

/-- The loop that fills the buffer, src/server-test.c:316-321: bytes and last character. -/
def testFill : Nat → UInt8 → List UInt8 × UInt8
  | 0, last => ([], last)
  | n + 1, last =>
    let c := last + 1
    let r := testFill n (if c = 0x7E then 0x20 else c)
    (c :: r.1, r.2)

/-- The delay of the next timer, src/server-test.c:337-350; `none` if the size of the interval overflows. -/
def testDelay (t : TestCon) (r2 : Nat) : Option Int :=
  if t.numLeft > 0 then some 0
  else if t.opts.msecMax < 0 then some 100
  else if t.opts.msecMin < 0 ∨ t.opts.msecMin ≥ t.opts.msecMax then some t.opts.msecMax
  else if t.opts.msecMax - t.opts.msecMin + 1 > 2147483647 then none
  else some (t.opts.msecMin + (r2 : Int) % (t.opts.msecMax - t.opts.msecMin + 1))

/-- `read_test_obj`, src/server-test.c:277-355: the new state, the data given to the readers, the delay until the next call.  `r1` and `r2` are the
results of `rand()` at lines 307 and 349. -/
def readTest (t : TestCon) (r1 r2 : Nat) : Option (TestCon × List UInt8 × Int) :=
  let p :=
    if t.numLeft > 0 ∨ t.opts.probability > (r1 : Int) % 100 then
      let left := if t.numLeft = 0 then t.opts.numBytes else t.numLeft
      let n := if left < 8191 then left else 8191
      let f := testFill n.toNat t.lastChar
      ({ t with numLeft := left - n, lastChar := f.2 }, f.1)
    else (t, [])
  (testDelay p.1 r2).map fun d => (p.1, p.2, d)

/-- Successive calls, each by the timer set before. -/
def testRun (t : TestCon) : List (Nat × Nat) → Option (List (List UInt8 × Int))
  | [] => some []
  | r :: rs => (readTest t r.1 r.2).bind fun x => (testRun x.1 rs).map fun l => (x.2.1, x.2.2) :: l

end Conman
