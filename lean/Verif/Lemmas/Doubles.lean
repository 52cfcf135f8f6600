import Verif.Props.Envelope64

/-! # The laws assumed of every arithmetic hold for binary64

With this instance every theorem stated for all scalar types with `FltOrd` and `FltLit` is a theorem about doubles. -/

namespace Verif.Props
open Flt Verif.Binary64

instance (sq : ℚ → Val) (hy : ℚ → ℚ → Val) : Rounding.SmallInts (binary64 sq hy) :=
  ⟨fun m hm => rnd_of_f64 (f64_int m (hm.trans (by norm_num)))⟩

end Verif.Props
