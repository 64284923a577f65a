import Verif.Model.NumTime
/-!
Model of the way of delays, times and the precision between Python and the simulator:
`register_timed_callback`, `get_sim_time`, `get_precision` of src/cocotb/share/lib/pygpi/bind.cpp, `gpi_get_sim_time` and
`gpi_get_sim_precision` of gpi/GpiCommon.cpp, and their parts in gpi/vpi, gpi/vhpi and gpi/fli. Machine integers are bit vectors.
-/
namespace Verif.GpiTime

open NumTime

inductive Iface | vpi | vhpi | fli
  deriving DecidableEq, Repr

/-- `PyLong_AsLongLong` for an `int`. -/
def asLongLong (n : Int) : PyM Int := if -2 ^ 63 ≤ n ∧ n < 2 ^ 63 then .ok n else .error .overflowError

/-- The time of `register_timed_callback`, bind.cpp:322-371. -/
def registerTimed (n : Int) : PyM (BitVec 64) :=
  match asLongLong n with
  | .error e => .error e
  | .ok n => if n < 0 then .error .valueError else .ok (BitVec.ofInt 64 n)

/-- `s_vpi_time` and `vhpiTimeT`. -/
structure TimeHL where
  high : BitVec 32
  low : BitVec 32
  deriving DecidableEq, Repr

/-- `VpiTimedCbHdl::VpiTimedCbHdl`, VpiCbHdl.cpp:250-256; `VhpiTimedCbHdl::VhpiTimedCbHdl`, VhpiCbHdl.cpp:183-190. -/
def timedHL (time : BitVec 64) : TimeHL := ⟨(time >>> 32).setWidth 32, time.setWidth 32⟩

/-- What an interface passes to the simulator: two halves, or a signed number (`FliTimedCbHdl::arm`, FliCbHdl.cpp:42-54, on a
64-bit machine). -/
inductive Delay | hl (t : TimeHL) | num (t : Int)
  deriving DecidableEq, Repr

@[inherit_doc Delay] def delay (i : Iface) (time : BitVec 64) : Delay :=
  match i with
  | .vpi | .vhpi => .hl (timedHL time)
  | .fli => .num time.toInt

/-- What the simulator says about the time. -/
inductive Now | hl (t : TimeHL) | nums (upper lower : Int)
  deriving DecidableEq, Repr

/-- `get_sim_time`: VpiImpl.cpp:37-44, VhpiImpl.cpp:71-77, FliImpl.cpp:445-449; bind.cpp:687-711. -/
def getTime : Now → BitVec 32 × BitVec 32
  | .hl t => (t.high, t.low)
  | .nums u l => (BitVec.ofInt 32 u, BitVec.ofInt 32 l)

/-- `log10int`, VhpiImpl.cpp:79-86. -/
def log10int (v : Nat) : Int := if v / 10 = 0 then 0 else 1 + log10int (v / 10)

/-- What the simulator says about the precision: the exponent, or a number of femtoseconds (`vhpiPhysT`). -/
inductive Prec | exp (e : Int) | phys (high low : BitVec 32)
  deriving DecidableEq, Repr

/-- `get_sim_precision`: VpiImpl.cpp:46-48, VhpiImpl.cpp:88-93, FliImpl.cpp:451-453. The cast of `prec.high` extends the sign. -/
def simPrecision : Prec → Int
  | .exp e => e
  | .phys h l => log10int ((h.signExtend 64 <<< 32) ||| l.setWidth 64).toNat - 15

/-- `gpi_get_sim_precision`, GpiCommon.cpp:316-325. -/
def getPrecision (p : Prec) : Int :=
  let val := simPrecision p
  let val := if val > 2 then 2 else val
  if val < -15 then -15 else val

end Verif.GpiTime
