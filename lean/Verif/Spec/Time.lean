import Verif.Model.Basic

namespace Conman.Spec

/-- Seconds of a unit of time; a year has 52 weeks. -/
def unitSeconds (c : UInt8) : Nat :=
  if c = 0x79 then 52 * 7 * 24 * 3600        -- y
  else if c = 0x77 then 7 * 24 * 3600        -- w
  else if c = 0x64 then 24 * 3600            -- d
  else if c = 0x68 then 3600                 -- h
  else if c = 0x6D then 60                   -- m
  else if c = 0x73 then 1                    -- s
  else 0

/-- Reading a text like `1d0h5m12s`: seconds so far and the number being read. -/
def readDelta (total cur : Nat) : List UInt8 → Nat
  | [] => total
  | c :: r =>
    if 0x30 ≤ c ∧ c ≤ 0x39 then readDelta total (10 * cur + (c.toNat - 0x30)) r
    else readDelta (total + cur * unitSeconds c) 0 r

/-- How many of a unit make up the next larger one; there is none beyond years. -/
def inRange (v : Nat) (c : UInt8) : Prop :=
  if c = 0x79 then True
  else if c = 0x77 then v < 52
  else if c = 0x64 then v < 7
  else if c = 0x68 then v < 24
  else v < 60

instance (v : Nat) (c : UInt8) : Decidable (inRange v c) := by
  unfold inRange
  repeat (first | infer_instance | split)

end Conman.Spec
