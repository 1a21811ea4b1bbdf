import Verif.Model.World

/-
Choosing the consoles of a request and validating it, src/server-sock.c.
-/
namespace Conman

/-- `cmd_t` of a request, src/common.h:136-141. -/
inductive ReqCmd where
  | query | monitor | connect
deriving Repr, DecidableEq

/-- `query_consoles_via_globbing`, src/server-sock.c:460-497.  `hit pat obj` is
`!fnmatch(pat, obj->name, 0)`; `objs` are the console objects of `conf->objs`
in order (others are skipped by 486-487); an empty list of patterns, possible
for QUERY only, becomes `"*"`, here `all`. -/
def queryGlob {Pat Obj : Type} [DecidableEq Obj] (hit : Pat → Obj → Bool) (all : Pat) (objs : List Obj) (pats : List Pat) : List Obj :=
  let pats := if pats.isEmpty then [all] else pats
  pats.foldl (fun ms pat =>
    objs.foldl (fun ms obj => if hit pat obj && !ms.contains obj then ms ++ [obj] else ms) ms) []

/-- `query_consoles_via_regex`, src/server-sock.c:500-559.  `hit pats obj`: the
regular expression made of all patterns matches the whole name (545-548);
`none`: it does not compile. -/
def queryRegex {Pat Obj : Type} (ok : List Pat → Bool) (hit : List Pat → Obj → Bool) (all : Pat)
    (objs : List Obj) (pats : List Pat) : Option (List Obj) :=
  let pats := if pats.isEmpty then [all] else pats
  if ok pats then some (objs.filter (hit pats)) else none

/-- `check_too_many_consoles`, src/server-sock.c:580-619: true if refused. -/
def tooManyConsoles (cmd : ReqCmd) (bcast : Bool) (consoles : List Nat) : Bool :=
  if cmd = .query then false
  else if consoles.length = 1 then false
  else if cmd = .connect ∧ bcast then false
  else true

/-- `check_busy_consoles`, src/server-sock.c:622-705: the list `busy`.  The text
of the answer is left out. -/
def busyConsoles (w : World) (cmd : ReqCmd) (force join : Bool) (consoles : List Nat) : List Nat :=
  if cmd = .query ∨ cmd = .monitor then []
  else if force ∨ join then []
  else consoles.filter (fun c => !(w.obj c).writers.isEmpty)

/-- `validate_req`, src/server-sock.c:562-577, after the adjustment of
`query_consoles` at 453-454. -/
def validateReq (w : World) (cmd : ReqCmd) (force join bcast : Bool) (consoles : List Nat) : Option ReqErr :=
  let bcast := if consoles.length = 1 then false else bcast
  if consoles.isEmpty then some .noConsoles
  else if tooManyConsoles cmd bcast consoles then some .tooMany
  else if !(busyConsoles w cmd force join consoles).isEmpty then some .busy
  else none

/-- The request as `World.step` takes it. -/
def ReqCmd.toCmd : Cmd → ReqCmd
  | .monitor => .monitor
  | .connect => .connect

end Conman
