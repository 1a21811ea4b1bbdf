import Verif.Spec.Opts

/-
Syslog names, as in syslog(3).
-/
namespace Conman.Spec

/-- Names of priorities; the number is that of RFC 5424, section 6.2.1. -/
inductive PriorityName : List UInt8 → Int → Prop
  | emerg {s : List UInt8} (h : s = bs "emerg" ∨ s = bs "emergency" ∨ s = bs "panic") : PriorityName s 0
  | alert : PriorityName (bs "alert") 1
  | crit {s : List UInt8} (h : s = bs "crit" ∨ s = bs "critical") : PriorityName s 2
  | err {s : List UInt8} (h : s = bs "err" ∨ s = bs "error") : PriorityName s 3
  | warning {s : List UInt8} (h : s = bs "warn" ∨ s = bs "warning") : PriorityName s 4
  | notice : PriorityName (bs "notice") 5
  | info : PriorityName (bs "info") 6
  | debug : PriorityName (bs "debug") 7

/-- The number of a facility, RFC 5424, section 6.2.1. -/
inductive FacilityName : List UInt8 → Nat → Prop
  | kern : FacilityName (bs "kern") 0
  | user : FacilityName (bs "user") 1
  | mail : FacilityName (bs "mail") 2
  | daemon : FacilityName (bs "daemon") 3
  | auth : FacilityName (bs "auth") 4
  | lpr : FacilityName (bs "lpr") 6
  | news : FacilityName (bs "news") 7
  | uucp : FacilityName (bs "uucp") 8
  | cron : FacilityName (bs "cron") 9
  | authpriv : FacilityName (bs "authpriv") 10
  | loc (k : Nat) (h : k < 8) : FacilityName (bs "local" ++ [0x30 + UInt8.ofNat k]) (16 + k)

/-- White space, then a name that does not begin with white space, in upper or lower case. -/
def Written (s name : List UInt8) : Prop := ∃ b w, s = b ++ w ∧ (∀ c ∈ b, blankChar c) ∧ sameName w name

end Conman.Spec
