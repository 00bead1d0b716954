/-!
# Time stamps (DMI/src/Timestamp.h, Timestamp.cc)

Simplification: `long` is unbounded (64-bit overflow of seconds is not modelled); the conversions from
and to `double` are not modelled.
-/
namespace Verif.Timestamp

/-- `sec_`, `usec_` (Timestamp.h:156-159). -/
structure TS where
  sec : Int
  usec : Int
  deriving DecidableEq, Repr

/-- First loop of `normalize` (Timestamp.cc:104-108). -/
def carry (t : TS) : TS :=
  if t.usec ≥ 1000000 then carry ⟨t.sec + 1, t.usec - 1000000⟩ else t
  termination_by t.usec.toNat
  decreasing_by simp_all; omega

/-- Second loop of `normalize` (Timestamp.cc:109-113). -/
def borrow (t : TS) : TS :=
  if t.usec < 0 then borrow ⟨t.sec - 1, t.usec + 1000000⟩ else t
  termination_by (-t.usec).toNat
  decreasing_by simp_all; omega

/-- `Timestamp::normalize` (Timestamp.cc:101-115). -/
def normalize (t : TS) : TS := borrow (carry t)

/-- `operator +=`, `operator +` (Timestamp.cc:79-87, Timestamp.h:254-258). -/
def add (a b : TS) : TS := normalize ⟨a.sec + b.sec, a.usec + b.usec⟩
/-- `operator -=`, `operator -` (Timestamp.cc:90-98, Timestamp.h:261-265). -/
def sub (a b : TS) : TS := normalize ⟨a.sec - b.sec, a.usec - b.usec⟩
/-- `operator ==` (Timestamp.h:186-189). -/
def eq (a b : TS) : Bool := a.sec == b.sec && a.usec == b.usec
/-- `operator <` (Timestamp.h:199-202). -/
def lt (a b : TS) : Bool := if a.sec = b.sec then a.usec < b.usec else a.sec < b.sec
/-- `operator >` (Timestamp.h:204-207). -/
def gt (a b : TS) : Bool := if a.sec = b.sec then a.usec > b.usec else a.sec > b.sec
/-- `operator <=` (Timestamp.h:210-213). -/
def le (a b : TS) : Bool := if a.sec = b.sec then a.usec ≤ b.usec else a.sec < b.sec
/-- `operator >=` (Timestamp.h:216-219). -/
def ge (a b : TS) : Bool := if a.sec = b.sec then a.usec ≥ b.usec else a.sec > b.sec
/-- `operator bool` (Timestamp.h:230-233). -/
def nonzero (a : TS) : Bool := a.sec != 0 || a.usec != 0
/-- The integer printed by `toString("us")` and `toString(USEC)` (Timestamp.cc:65-66, 143-144). -/
def printUs (a : TS) : Int := a.sec * 1000000 + a.usec
/-- The integer printed by `toString("ns")` and `toString(NSEC)` (Timestamp.cc:67-68, 146-147). -/
def printNs (a : TS) : Int := a.sec * 1000000000 + a.usec * 1000

end Verif.Timestamp
