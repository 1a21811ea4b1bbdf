import Verif.Model.Basic

/-
Watching for the creation of files.
-/
namespace Conman

/-- What can happen to the file watches. -/
inductive WEv where
  /-- a path is registered with a callback; `ok` is whether the kernel has a queue of events to spare -/
  | add (path : List UInt8) (cb : Nat) (ok : Bool)
  | remove (path : List UInt8)
  /-- the next `n` events of the kernel are read and processed -/
  | process (n : Nat)
  /-- a file of this name is created in a directory, or moved to it -/
  | created (ino : Nat) (name : List UInt8)
  /-- a directory is removed -/
  | gone (ino : Nat)
  /-- names of directories now mean other directories -/
  | dirs (f : List UInt8 → Option Nat)

end Conman

namespace Conman.Spec

/-- The directory and the last component of an absolute path. -/
inductive Parent : List UInt8 → List UInt8 → List UInt8 → Prop
  | root (f : List UInt8) (h : (0x2F : UInt8) ∉ f) : Parent (0x2F :: f) [0x2F] f
  | sub (d f : List UInt8) (h : (0x2F : UInt8) ∉ f) (hd : d ≠ []) : Parent (d ++ 0x2F :: f) d f

/-- The directories names mean after a history. -/
def dirsAfter (d : List UInt8 → Option Nat) : List WEv → (List UInt8 → Option Nat)
  | [] => d
  | .dirs f :: h => dirsAfter f h
  | _ :: h => dirsAfter d h

/-- The creation of a file of this name, in whatever directory. -/
def isCreation (f : List UInt8) : WEv → Bool
  | .created _ n => n = f
  | _ => false

end Conman.Spec
