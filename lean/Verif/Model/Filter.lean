import Mathlib.Algebra.Order.Field.Basic
/-!
# Model of `oceanmesh/filterfx.py`
-/
namespace OM

/-- The argument `wl` of `filt2`: a number, or something with a length (`oceanmesh/filterfx.py:29-58`). -/
inductive WaveArg (K : Type) where
  | scalar (w : K)
  | vector (ws : List K)

section
variable {K F : Type} [Field K] [LinearOrder K]

/-- The low-pass branch (`oceanmesh/filterfx.py:58-63`) for fields in an additive group; `gauss sigma truncate` is
`gaussian_filter` with mode `nearest`, `twoPi` is `2 * np.pi`. -/
def lowPass (gauss : K → K → F → F) (twoPi res truncate w : K) (Z : F) : F := gauss (w / res / twoPi) truncate Z

/-- The high-pass branch (`oceanmesh/filterfx.py:65-66`). -/
def highPass [Sub F] (gauss : K → K → F → F) (twoPi res truncate w : K) (Z : F) : F := Z - gauss (w / res / twoPi) truncate Z

/-- `filt2` (`oceanmesh/filterfx.py:15-74`) for a two-dimensional field and a scalar resolution other than zero. `none` = `TypeError`.
The recursive calls use the default `truncate=2.6`. -/
def filt2 [Sub F] (gauss : K → K → F → F) (twoPi : K) (Z : F) (res : K) (wl : WaveArg K) (filtertype : String) (truncate : K) :
    Option F :=
  match filtertype.toLower, wl with
  | "lowpass", .scalar w => some (lowPass gauss twoPi res truncate w Z)
  | "highpass", .scalar w => some (highPass gauss twoPi res truncate w Z)
  | "bandpass", .vector [a, b] =>
    some (lowPass gauss twoPi res (26 / 10) (min a b) (highPass gauss twoPi res (26 / 10) (max a b) Z))
  | "bandstop", .vector [a, b] =>
    some (lowPass gauss twoPi res (26 / 10) (max a b) Z - highPass gauss twoPi res (26 / 10) (min a b) Z)
  | _, _ => none

end
end OM
