import Verif.Model.World

/-
A concrete daemon used by the examples and counterexamples about `World`: a
serial console (object 0) with a log (object 1) and a reset command, and a telnet
console (object 2).  Clients are created at addresses 10, 11, ...
-/
namespace Conman.Demo

/-- Short texts so that results can be read off. -/
def env : Env where
  txt n _ := match n with
    | .stolenBy _ _ => [0x53] | .joinedBy _ _ => [0x4A] | .departed _ _ => [0x44] | _ => [0x6E]
  clk _ _ := List.replicate 20 0x54
  fork t := some (100 + t)
  fmtOk _ _ := true
  replay _ _ := [0x4C]

def cfg : List ConConf := [⟨.serial, true, some ⟨false, false⟩⟩, ⟨.telnet, false, none⟩]

/-- The state after a history. -/
def after (ss : List Step) : World := ((World.boot cfg).run env ss).getD (World.boot cfg)

/-- Connect or monitor requests for console 0. -/
def con (force join : Bool := false) : Req := ⟨.connect, [0], force, join, false, false⟩
def mon : Req := ⟨.monitor, [0], false, false, false, false⟩

/-- Both consoles up, client 10 writing to console 0. -/
def one : List Step := [.connUp 0, .connUp 2, .check con, .grant 10 0]
/-- Then client 11 joins and client 12 monitors. -/
def three : List Step := one ++ [.check (con false true), .grant 11 0, .check mon, .grant 12 0]

theorem reach (ss : List Step) (h : ((World.boot cfg).run env ss).isSome = true) : Reachable env (after ss) := by
  refine ⟨cfg, ss, by decide, ?_⟩
  unfold after
  cases hr : (World.boot cfg).run env ss with
  | none => rw [hr] at h; simp at h
  | some w => rfl

end Conman.Demo
