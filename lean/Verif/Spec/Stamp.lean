import Verif.Model.Basic

/-
Periodic timestamps of the logs.
-/
namespace Conman
namespace Spec

/-- Seconds since local midnight; `zone` is what local time is ahead of the time given. -/
def sinceMidnight (zone t : Int) : Int := (t + zone) % 86400

/-- The time is a multiple of `m` minutes after local midnight. -/
def Aligned (zone m t : Int) : Prop := sinceMidnight zone t % (60 * m) = 0

end Spec
end Conman
