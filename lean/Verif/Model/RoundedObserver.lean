import Verif.Model.Observer

/-!
# The colours with rounded operations

The colours of `Model/Observer` written again with a rounding `rnd` after each operation and each
conversion, that of `float`.  The constants of the code are numbers of `float`.

Simplification: overflow and subnormal numbers are not modelled.
-/

namespace Bx.Rounded

open Params (D)
open Observer (Rgb toByte)

/-- The channels before their conversion (`pnm.hpp:72-87`): `Observer.channels`. -/
def channels (rnd : Rat → Rat) (lo hi v : Rat) : Rat × Rat × Rat :=
  let dv := rnd (hi - lo)
  if v < rnd (lo + rnd (1 / 4 * dv)) then (0, rnd (rnd (4 * rnd (v - lo)) / dv), 1)
  else if v < rnd (lo + rnd (1 / 2 * dv)) then
    (0, 1, rnd (1 + rnd (rnd (4 * rnd (rnd (lo + rnd (1 / 4 * dv)) - v)) / dv)))
  else if v < rnd (lo + rnd (3 / 4 * dv)) then
    (rnd (rnd (4 * rnd (rnd (v - lo) - rnd (1 / 2 * dv))) / dv), 1, 0)
  else (1, rnd (1 + rnd (rnd (4 * rnd (rnd (lo + rnd (3 / 4 * dv)) - v)) / dv)), 0)

/-- `static_cast<float>(v_)` (`pnm.hpp:64`). -/
def toFloat (rnd : Rat → Rat) : D → D
  | .fin q => .fin (rnd q)
  | v => v

/-- `colormap::operator()` (`pnm.hpp:61-92`): `Observer.colormap`. -/
def colormap (rnd : Rat → Rat) (lo hi : Rat) (v : D) : Outcome Rgb :=
  let v := toFloat rnd v
  let v := if v.lt (.fin lo) then .fin lo else v
  let v := if (D.fin hi).lt v then .fin hi else v
  match v with
  | .fin q => do
    let (r, g, b) := channels rnd lo hi q
    .ok ⟨← toByte (rnd (r * 255)), ← toByte (rnd (g * 255)), ← toByte (rnd (b * 255))⟩
  | _ => .error (.ub "static_cast<std::uint8_t>")

end Bx.Rounded
