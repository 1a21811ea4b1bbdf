import Verif.Model.CStr

/-
src/util-file.c: complete reads and writes, lines, directory names.

System calls answer from a schedule, a list of events with one event per call; when it is used up the call blocks for ever.
-/
namespace Conman

/-- Result of one `read` or `write`. -/
inductive Sys where
  /-- -1 with `EINTR` -/
  | intr
  /-- -1 with another error -/
  | fail
  /-- a transfer of at most this many bytes (for `read`: at least one, unless at end-of-file) -/
  | upto (k : Nat)
deriving Repr, DecidableEq

/-- How a function ended. -/
inductive IOEnd where
  | ret (n : Nat)
  | err
  /-- still waiting when the schedule was used up -/
  | blocked
deriving Repr, DecidableEq

/-- What a read leaves behind: end, bytes stored (one after the other from the start of the buffer), bytes of the stream not read. -/
structure RdRes where
  fin : IOEnd
  stored : List UInt8
  rest : List UInt8
deriving Repr, DecidableEq

/-- `read_n`, src/util-file.c:161-183, with `nleft` bytes to go; `data` is what the stream holds up to its end. -/
def readN (n : Nat) : List Sys → (data acc : List UInt8) → (nleft : Nat) → RdRes
  | _, data, acc, 0 => { fin := .ret n, stored := acc, rest := data }
  | [], data, acc, _ + 1 => { fin := .blocked, stored := acc, rest := data }
  | .intr :: sched, data, acc, nleft + 1 => readN n sched data acc (nleft + 1)
  | .fail :: _, data, acc, _ + 1 => { fin := .err, stored := acc, rest := data }
  | .upto k :: sched, data, acc, nleft + 1 =>
    let got := data.take (min (k + 1) (nleft + 1))
    if got.length = 0 then { fin := .ret (n - (nleft + 1)), stored := acc, rest := data }
    else readN n sched (data.drop got.length) (acc ++ got) (nleft + 1 - got.length)

/-- `write_n`, src/util-file.c:186-205: `p` is what is left of the buffer; the bytes written are collected. -/
def writeN (n : Nat) : List Sys → (p acc : List UInt8) → IOEnd × List UInt8
  | _, [], acc => (.ret n, acc)
  | [], _ :: _, acc => (.blocked, acc)
  | .intr :: sched, b :: p, acc => writeN n sched (b :: p) acc
  | .fail :: _, _ :: _, acc => (.err, acc)
  | .upto k :: sched, b :: p, acc => writeN n sched ((b :: p).drop k) (acc ++ (b :: p).take k)

/-- Result of `read_line`: end, array, bytes of the stream not read; `none` for an access outside the array. -/
structure LineRes where
  fin : IOEnd
  buf : List UInt8
  rest : List UInt8
deriving Repr, DecidableEq

/-- The loop of `read_line`, src/util-file.c:225-244, and what follows it: `n` bytes are stored, `left` is `maxlen - n`. -/
def readLineLoop : List Sys → (data buf : List UInt8) → (n left : Nat) → Option LineRes
  | _, data, buf, n, 0 => (poke buf n 0).map (fun buf => { fin := .ret n, buf := buf, rest := data })
  | [], data, buf, _, _ + 1 => some { fin := .blocked, buf := buf, rest := data }
  | .intr :: sched, data, buf, n, left + 1 => readLineLoop sched data buf n (left + 1)
  | .fail :: _, data, buf, _, _ + 1 => some { fin := .err, buf := buf, rest := data }
  | .upto _ :: sched, data, buf, n, left + 1 =>
    match data with
    | [] =>
      if n = 0 then some { fin := .ret 0, buf := buf, rest := [] }
      else (poke buf n 0).map (fun buf => { fin := .ret n, buf := buf, rest := [] })
    | c :: data =>
      (poke buf n c).bind (fun buf =>
        if c = 0x0A then (poke buf (n + 1) 0).map (fun buf => { fin := .ret (n + 1), buf := buf, rest := data })
        else readLineLoop sched data buf (n + 1) left)

/-- `read_line`, src/util-file.c:208-247 (`buf` not NULL). -/
def readLine (sched : List Sys) (data buf : List UInt8) (maxlen : Nat) : Option LineRes :=
  if maxlen = 0 then some { fin := .ret 0, buf := buf, rest := data }
  else readLineLoop sched data buf 0 (maxlen - 1)

/-! ### Directory names

A pointer `p` into a path is the number `p + 1 - srcpath`, so that `srcpath - 1` is 0. -/

/-- `while ((p > srcpath) && (*p == '/')) p--`, src/util-file.c:265-267 and 275-277. -/
def backSlashes (s : List UInt8) : Nat → Option Nat
  | 0 => some 0
  | i + 1 =>
    if i > 0 then
      match s[i]? with
      | none => none
      | some c => if c = 0x2F then backSlashes s i else some (i + 1)
    else some (i + 1)

/-- `while ((p >= srcpath) && (*p != '/')) p--`, src/util-file.c:270-272. -/
def backName (s : List UInt8) : Nat → Option Nat
  | 0 => some 0
  | i + 1 =>
    match s[i]? with
    | none => none
    | some c => if c ≠ 0x2F then backName s i else some (i + 1)

/-- `get_dir_name`, src/util-file.c:251-302, for a path (without its NUL) and an array `dst` declared with size `dstlen`: the array, and
whether the result is `dstdir` rather than NULL. -/
def getDirName (path dst : List UInt8) (dstlen : Nat) : Option (List UInt8 × Bool) :=
  (backSlashes path path.length).bind (fun i =>
  (backName path i).bind (fun i =>
  (backSlashes path i).bind (fun i =>
    if i = 0 then
      if dstlen < 2 then some (dst, false)
      else (pokes dst 0 [0x2E, 0]).map (·, true)
    else if i ≥ dstlen then some (dst, false)
    else (pokes dst 0 (path.take i ++ [0])).map (·, true))))

/-! ### create_dirs -/

/-- Stripping of trailing slashes, src/util-file.c:338-341: number of characters left. -/
def stripSlashes (s : List UInt8) : Option Nat :=
  match s with
  | [] => none
  | _ => backSlashes s s.length

/-- One name per round of the loop of `create_dirs`, src/util-file.c:348-383: the argument of each `mkdir`, as a list of prefixes of `s`;
`i` is `slash_ptr`.  Each round passes at least one byte. -/
def dirsLoop (s : List UInt8) : Nat → Nat → Option (List (List UInt8))
  | 0, _ => none
  | n + 1, i =>
    let j := i + ((s.drop i).takeWhile (· = 0x2F)).length
    let k := j + ((s.drop j).takeWhile (· ≠ 0x2F)).length
    if k < s.length then (dirsLoop s n (k + 1)).map (s.take k :: ·)
    else some [s]

/-- `create_dirs`, src/util-file.c:306-384, for a non-empty name that does not exist yet and is shorter than `PATH_MAX`: the directories that
`mkdir` is called for if no call fails. -/
def createDirs (s : List UInt8) : Option (List (List UInt8)) :=
  (stripSlashes s).bind (fun n => dirsLoop (s.take n) (n + 1) 0)

/-- The loop with a file system: `mk d` is true if `mkdir d` succeeds or `d` is a directory already (354-368); the first failure ends it. -/
def makeAll (mk : List UInt8 → Bool) : List (List UInt8) → List (List UInt8) × Bool
  | [] => ([], true)
  | d :: ds => if mk d then (d :: (makeAll mk ds).1, (makeAll mk ds).2) else ([d], false)

end Conman
