import Verif.Model.ClientArgs
import Verif.Spec.Getopt

/-
`getopt` of the C library, with any string of options.
-/
namespace Conman
open Spec

/-- The characters of a word of options, as `optWord`: `fl` are the options without argument, `ar` those with one. -/
def gWord (fl ar : List UInt8) : List UInt8 → List COpt × WordEnd
  | [] => ([], .done)
  | c :: s =>
    if c ∈ fl then (.flag c :: (gWord fl ar s).1, (gWord fl ar s).2)
    else if c ∈ ar then if s = [] then ([], .wants c) else ([], .attached c s)
    else ([], .bad c)

/-- `getopt` (C library, GNU, without POSIXLY_CORRECT), as `getopt` for the client: all options up to the first one that is not valid. -/
def gGetopt (fl ar : List UInt8) : List (List UInt8) → GetoptRes
  | [] => ⟨[], [], none⟩
  | a :: r =>
    if a = bs "--" then ⟨[], r, none⟩
    else if a.head? = some 0x2D ∧ a ≠ bs "-" then
      match (gWord fl ar (a.drop 1)).2 with
      | .done => GetoptRes.pre (gWord fl ar (a.drop 1)).1 (gGetopt fl ar r)
      | .attached c v => GetoptRes.pre ((gWord fl ar (a.drop 1)).1 ++ [.arg c v]) (gGetopt fl ar r)
      | .wants c =>
        match r with
        | [] => ⟨(gWord fl ar (a.drop 1)).1, [], some c⟩
        | v :: r => GetoptRes.pre ((gWord fl ar (a.drop 1)).1 ++ [.arg c v]) (gGetopt fl ar r)
      | .bad c => ⟨(gWord fl ar (a.drop 1)).1, [], some c⟩
    else let q := gGetopt fl ar r; { q with operands := a :: q.operands }

end Conman
