import Verif.Model.PrecisionModel
import Verif.Model.DDConstants

/-! # Model of the digits of a fixed scale, `src/core/geom/precision_model.rs` -/

namespace Verif
open Flt

namespace PM

/-- The digits of a fixed scale in `get_maximum_significant_digits` (precision_model.rs:183). `ln` is `f64::ln`; the sum of `i32`
panics if it overflows, as in a build with overflow checks. -/
def fixedDigits {r : Rounding} (ln : Fl r → Fl r) (scale : Fl r) : Res Int :=
  DD.i32Check (1 + Fl.toI32 (FltRound.ceil (ln scale /. ln (lit 10))))

end PM
end Verif
