import Verif.Model.Py
/-!
# `RPCClient.measure_clock_diff`

/repo/teleprox/client.py:616-630. Times are exact rational numbers: rounding of floats is not modelled.
-/
namespace Verif

/-- The differences; /repo/teleprox/client.py:625-626. `zip(rtimes[:-1], ltimes[1:], ltimes[:-1])` ends with the shortest list. -/
def clockDifs (ltimes rtimes : List Rat) : List Rat :=
  (rtimes.dropLast.zip (ltimes.tail.zip ltimes.dropLast)).map fun (rt, lt1, lt2) => rt - (lt1 + lt2) * (1 / 2)

/-- `measure_clock_diff` for the readings of the local clock and the answers, in order; /repo/teleprox/client.py:616-630. The code takes ten of each. The mean of nothing raises. -/
def clockDiff (ltimes rtimes : List Rat) : Except Exc Rat :=
  if clockDifs ltimes rtimes = [] then .error (.other "ZeroDivisionError")
  else .ok ((clockDifs ltimes rtimes).foldl (· + ·) 0 / (clockDifs ltimes rtimes).length)

end Verif
