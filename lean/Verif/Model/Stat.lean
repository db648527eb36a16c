/-
The percentages of `Endpoint::print_statistics` (src/endpoint.cpp:670-695).
-/
import Verif.Model.Rx

namespace Verif

/-- `(x * 100) / read_total` (src/endpoint.cpp:672, 678, 682): 32-bit arithmetic; `read_total` is 1 instead of 0. -/
def printedPercent (x total : UInt32) : UInt32 := x * 100 / (if total = 0 then 1 else total)

end Verif
