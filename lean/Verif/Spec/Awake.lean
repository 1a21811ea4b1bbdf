import Verif.Spec.Screen

/-
Vocabulary for the statements about output that waits (C95).
-/
namespace Conman

/-- If bytes wait for an open object, the daemon asks whether it can be written to, unless it is a client that suspended its output. -/
def Obj.awake (o : Obj) : Prop := o.fd = true → o.pend ≠ [] → o.pout = true ∨ (o.kind = .client ∧ o.suspend = true)

instance (o : Obj) : Decidable o.awake := by unfold Obj.awake; infer_instance

/-- Clients, logs and telnet consoles; the others are consoles that are opened without sending anything. -/
def OKind.greets : OKind → Bool
  | .client | .logfile | .telnet => true
  | _ => false

/-- Open, connected, and not suspended. -/
def Obj.takesOutput (o : Obj) : Bool :=
  o.fd && !(decide (o.kind = .client) && o.suspend) && !(decide (o.kind = .telnet) && decide (o.conn = .pending))

/-- The other side accepts at least one byte. -/
def acceptsOf (i : Nat) : Step → Bool
  | .poll j _ _ (some (.accept n)) => decide (j = i) && decide (0 < n)
  | _ => false

/-- How often in a history the other side of `i` accepts at least one byte, while `i` is open, connected and not suspended. -/
def acceptCount (env : Env) (i : Nat) : World → List Step → Nat
  | _, [] => 0
  | w, s :: ss =>
    match w.step env s with
    | none => 0
    | some w1 =>
      (if acceptsOf i s && (w.obj i).takesOutput then 1 else 0) +
        acceptCount env i { w1 with tick := w1.tick + 1 } ss

end Conman
