/-
What a processed console log is to contain, independent of the model.
-/
namespace Conman.Spec

/-- CR or LF. -/
def isEol (b : UInt8) : Bool := b == 0x0D || b == 0x0A

/-- Bytes that continue a line-end run: CR, LF and NUL. -/
def isRun (b : UInt8) : Bool := b == 0x0D || b == 0x0A || b == 0

/-- A console stream as a sequence of text bytes (`some b`) and line ends
(`none`).  A run of CR, LF and NUL bytes starting with CR or LF stands for as
many line ends as it has LFs; a run without LF (CRs only) stands for one line
end if text follows, and is still undecided at the end of the stream. -/
def normLines : List UInt8 → List (Option UInt8)
  | [] => []
  | c :: cs =>
    if isEol c then
      let run := c :: cs.takeWhile isRun
      let rest := cs.dropWhile isRun
      (if 0x0A ∈ run then List.replicate (run.count 0x0A) none
       else if rest = [] then [] else [none]) ++ normLines rest
    else some c :: normLines cs
termination_by l => l.length
decreasing_by
  · simp only [List.length_cons]
    have := (List.dropWhile_suffix (p := isRun) (l := cs)).length_le
    omega
  · simp

/-- Lay out text and line ends: each line starts with a stamp (if enabled), line
ends are CR LF, text bytes are rendered by `enc`.  `bol`: at a line start.
`k`: number of stamps so far. -/
def layout (enc : UInt8 → List UInt8) (ts : Bool) (clk : Nat → List UInt8) :
    Bool → Nat → List (Option UInt8) → List UInt8
  | _, _, [] => []
  | bol, k, x :: xs =>
    let stamp := if ts && bol then clk k else []
    let k' := if ts && bol then k + 1 else k
    match x with
    | some b => stamp ++ enc b ++ layout enc ts clk false k' xs
    | none => stamp ++ [0x0D, 0x0A] ++ layout enc ts clk true k' xs

/-- Printable ASCII. -/
def isPrint (b : UInt8) : Bool := 0x20 ≤ b && b ≤ 0x7E

/-- Sanitised rendering of a byte: controls as `^@`..`^_`, DEL as `^?`, bytes
128 above those with `~` for `^`, other bytes above 128 with a backquote. -/
def sanByte (b : UInt8) : List UInt8 :=
  if b < 32 then [0x5E, 64 + b]
  else if b < 127 then [b]
  else if b = 127 then [0x5E, 0x3F]
  else if b < 160 then [0x7E, b - 64]
  else if b < 255 then [0x60, b - 128]
  else [0x7E, 0x3F]

/-- CR and LF occur only as CR LF pairs. -/
def crlfOk : List UInt8 → Bool
  | [] => true
  | 0x0D :: 0x0A :: r => crlfOk r
  | c :: r => (c != 0x0D && c != 0x0A) && crlfOk r

/-- Reading a sanitised rendering back: `^` control, `~` meta control, backquote
meta. -/
def unsanitize : List UInt8 → List UInt8
  | [] => []
  | [a] => [a]
  | a :: b :: rest =>
    if a = 0x5E then (if b = 0x3F then 0x7F else b - 0x40) :: unsanitize rest
    else if a = 0x7E then (if b = 0x3F then 0xFF else b + 0x40) :: unsanitize rest
    else if a = 0x60 then (b + 0x80) :: unsanitize rest
    else a :: unsanitize (b :: rest)

end Conman.Spec
