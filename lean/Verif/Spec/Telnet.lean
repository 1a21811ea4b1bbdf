/-
The telnet stream grammar of RFC 854/855, independent of the model.
-/
namespace Conman.Spec

/-- One element of a telnet stream. -/
inductive TelTok where
  /-- an application byte -/
  | data (b : UInt8)
  /-- WILL (251), WONT (252), DO (253), DONT (254) with an option -/
  | will (opt : UInt8)
  | wont (opt : UInt8)
  | do_ (opt : UInt8)
  | dont (opt : UInt8)
  /-- a subnegotiation with its (unescaped) parameter bytes -/
  | sub (body : List UInt8)
  /-- any other command -/
  | cmd (c : UInt8)
deriving Repr, DecidableEq

/-- 0xFF is doubled in data and in parameters. -/
def iacDouble (b : UInt8) : List UInt8 := if b = 255 then [255, 255] else [b]

/-- Wire encoding of an element. -/
def TelTok.enc : TelTok → List UInt8
  | data b => iacDouble b
  | will o => [255, 251, o]
  | wont o => [255, 252, o]
  | do_ o => [255, 253, o]
  | dont o => [255, 254, o]
  | sub body => [255, 250] ++ body.flatMap iacDouble ++ [255, 240]
  | cmd c => [255, c]

/-- `cmd` stands for commands other than the option commands and 0xFF. -/
def TelTok.ok : TelTok → Prop
  | cmd c => c < 250
  | _ => True

/-- The application data carried by an element. -/
def TelTok.appData : TelTok → List UInt8
  | data b => [b]
  | _ => []

/-- The reply due to an element: refuse every request for an option other than
binary (0), suppress-go-ahead (3) and, offered by the peer, echo (1). -/
def TelTok.reply : TelTok → List TelTok
  | do_ o => if o = 0 ∨ o = 3 then [] else [wont o]
  | will o => if o = 0 ∨ o = 1 ∨ o = 3 then [] else [dont o]
  | _ => []

end Conman.Spec
