import Verif.Model.Timestamp
/-! # What time stamps mean -/
namespace Verif.TimestampSpec
/-- The number of microseconds a time stamp stands for. -/
def total (t : Timestamp.TS) : Int := 1000000 * t.sec + t.usec
/-- Normalised: the microseconds are a proper fraction of a second. -/
def Normal (t : Timestamp.TS) : Prop := 0 ≤ t.usec ∧ t.usec < 1000000
end Verif.TimestampSpec
