/-
Constants shared by the model files.
-/
namespace Conman

/-- The bytes of an ASCII string literal (without the terminating NUL). -/
def bs (s : String) : List UInt8 := s.toList.map (fun c => UInt8.ofNat c.toNat)

/-- `CONMAN_MSG_PREFIX`, src/common.h:73. -/
def msgPrefix : List UInt8 := bs "\r\n<ConMan> "

/-- `CONMAN_MSG_SUFFIX`, src/common.h:74. -/
def msgSuffix : List UInt8 := bs ".\r\n"

/-- `ESC_CHAR`, src/common.h:91. -/
def escChar : UInt8 := 0xFF

/-- `MAX_LINE`, src/common.h:87. -/
def maxLine : Nat := 1024

end Conman
