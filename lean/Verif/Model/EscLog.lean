import Verif.Model.Esc
import Verif.Model.LogMsg

/-
Messages about escape codes the daemon does not know: src/server-esc.c.
-/
namespace Conman
open Spec

/-- The codes with a `case` in `process_client_escapes`, src/server-esc.c:79-115; their values, src/common.h:91-104. -/
def knownCode (c : UInt8) : Bool :=
  c ∈ [escChar, 0x42, 0x44, 0x46, 0x4A, 0x4C, 0x4D, 0x51, 0x52, 0x5A]

/-- The call of `log_msg` for a code without a `case`, src/server-esc.c:116-119.  `%c` puts the byte as it is. -/
def invalidEsc (stamp name : List UInt8) (c : UInt8) : LogCall :=
  { stamp := stamp, prio := 4, text := bs "Received invalid escape '" ++ [c] ++ bs "' from " ++ name }

/-- The messages caused by one call of `process_client_escapes`, src/server-esc.c:76-128.  The time of day is the same for all of them (a simplification). -/
def escMsgs (stamp name : List UInt8) (esc : Bool) (src : List UInt8) : List LogCall :=
  ((processClientEscapes esc src).acts.filter fun c => !knownCode c).map (invalidEsc stamp name)

end Conman
