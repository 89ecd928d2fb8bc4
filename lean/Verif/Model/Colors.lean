import Mathlib.Analysis.SpecialFunctions.Pow.Real
import Mathlib.Algebra.Order.Floor.Ring
import Verif.Model.Utils

/-!
# Colour maps
-/

namespace Kalepy

/-- A colour: red, green and blue components. -/
@[ext] structure RGB where
  r : ℝ
  g : ℝ
  b : ℝ

open Classical in
/-- `matplotlib.colors.rgb_to_hsv` of one colour (called in `plot.py:2188`): hue, saturation and value.  If several
components are the largest, the last one determines the hue. -/
noncomputable def rgbToHsv (c : RGB) : ℝ × ℝ × ℝ :=
  let mx := max (max c.r c.g) c.b
  let mn := min (min c.r c.g) c.b
  let delta := mx - mn
  let s := if 0 < mx ∧ 0 < delta then delta / mx else 0
  let h :=
    if 0 < delta then
      if c.b = mx then 4 + (c.r - c.g) / delta
      else if c.g = mx then 2 + (c.b - c.r) / delta
      else (c.g - c.b) / delta
    else 0
  (Int.fract (h / 6), s, mx)

/-- `matplotlib.colors.hsv_to_rgb` of one colour (called in `plot.py:2196`). -/
noncomputable def hsvToRgb (hsv : ℝ × ℝ × ℝ) : RGB :=
  let h := hsv.1
  let s := hsv.2.1
  let v := hsv.2.2
  let i := ⌊h * 6⌋
  let f := h * 6 - i
  let p := v * (1 - s)
  let q := v * (1 - s * f)
  let t := v * (1 - s * (1 - f))
  open Classical in
  if s = 0 then ⟨v, v, v⟩
  else if i % 6 = 0 then ⟨v, t, p⟩
  else if i = 1 then ⟨q, v, p⟩
  else if i = 2 then ⟨p, v, t⟩
  else if i = 3 then ⟨p, q, v⟩
  else if i = 4 then ⟨t, p, v⟩
  else ⟨v, p, q⟩

/-- `np.interp(x, [0.0, 1.0], [a, b])`. -/
noncomputable def interp01 (x a b : ℝ) : ℝ := npInterp x [0, 1] [a, b]

/-- `plot.py:2200-2201`: distance of two colours relative to that of white and black. -/
noncomputable def colorDist (c e : RGB) : ℝ :=
  Real.sqrt ((e.r - c.r) ^ 2 + (e.g - c.g) ^ 2 + (e.b - c.b) ^ 2) / Real.sqrt 3

/-- `plot.py:2181-2209` `_color_to_cmap(col, pow, sat, val, white, black)`: the three colours between which the colour
map interpolates. -/
noncomputable def colorToCmap (col : RGB) (pow : ℝ := 333 / 1000) (sat val : ℝ := 1 / 4) (white : ℝ := 1)
    (black : ℝ := 0) : RGB × RGB × RGB :=
  let hsv := rgbToHsv col
  let hsv := (hsv.1, hsv.2.1, interp01 val hsv.2.2 1)
  let hsv := (hsv.1, interp01 sat hsv.2.1 1, hsv.2.2)
  let rgb := hsvToRgb hsv
  let dw := colorDist rgb ⟨1, 1, 1⟩
  let db := colorDist rgb ⟨0, 0, 0⟩
  let shift (d edge ll : ℝ) : ℝ := interp01 (d ^ pow) ll edge
  (⟨shift dw white rgb.r, shift dw white rgb.g, shift dw white rgb.b⟩, rgb,
    ⟨shift db black rgb.r, shift db black rgb.g, shift db black rgb.b⟩)

/-- `plot.py:2269-2274` `_invert_color`: red, green, blue and alpha. -/
def invertColor (c : ℝ × ℝ × ℝ × ℝ) : ℝ × ℝ × ℝ × ℝ := (1 - c.1, 1 - c.2.1, 1 - c.2.2.1, c.2.2.2)

end Kalepy
