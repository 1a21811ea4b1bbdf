import Verif.Model.File
import Verif.Model.Conf

/-
How the file of the configuration gets into memory: `process_config` of src/server-conf.c.
-/
namespace Conman

/-- What becomes of the start of the daemon. -/
inductive ConfLoad where
  /-- the file was parsed (`none`: an access outside the text) -/
  | parsed (c : Option SConf)
  /-- "Unable to read", and the daemon ends -/
  | unable
  /-- it still waits for a `read` -/
  | waits
deriving DecidableEq

/-- `process_config`, src/server-conf.c:422-469, with assertions compiled out.  `size` is `st_size`, which is 0 for pipes and devices; `sched` and `data` are what the calls of `read`
find afterwards, see `readN`; `mem` is what the memory given by `malloc` has (`size` bytes, and one more for the final NUL, which is written at 433). -/
def loadConf (env : CEnv) (size : Nat) (sched : List Sys) (data mem : List UInt8) (c : SConf) : ConfLoad :=
  let r := readN size sched data [] size
  match r.fin with
  | .err => .unable
  | .blocked => .waits
  | .ret _ => .parsed (processConfig env (r.stored ++ mem.drop r.stored.length) c)

end Conman
