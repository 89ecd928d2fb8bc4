import Verif.Model.Resample

/-!
# Specification: the calls a user can make on a `KDE` object
-/

namespace Kalepy

variable {d : ℕ}

/-- Specification: the calls a user can make on a `KDE` object. -/
inductive Spec.Call (d : ℕ) where
  | points
  | density (points : Option Pts) (reflect : Reflect) (params : ParamArg) (grid probability : Bool)
  | pdf (points : Option Pts) (reflect : Reflect) (params : ParamArg) (grid : Bool)
  | cdf (points : Pts) (params : ParamArg) (reflect : Reflect)
  | resample (size : Option ℕ) (keep : KeepArg) (reflect : Reflect) (squeeze : Bool) (rnd : ℕ → ℕ → Draw d)

/-- What a call returns (or raises). -/
inductive Spec.Outcome (d : ℕ) where
  | points (r : Res Pts)
  | values (r : Res (Pts × Arr))
  | probs (r : Res (List ℝ))
  | samples (r : Res (Samples d))

/-- The effect of a call: outcome and new state of the object. -/
noncomputable def Spec.call (E : Ext) (srt : List ℝ → List ℕ) (k : KDE d) : Spec.Call d → Spec.Outcome d × KDE d
  | .points => (.points (k.points srt).1, (k.points srt).2)
  | .density p r ps g pr => (.values (k.density E srt p r ps g pr).1, (k.density E srt p r ps g pr).2)
  | .pdf p r ps g => (.values (k.pdf E srt p r ps g).1, (k.pdf E srt p r ps g).2)
  | .cdf p ps r => (.probs (k.cdf E srt p ps r).1, (k.cdf E srt p ps r).2)
  | .resample n kp r sq rnd => (.samples (k.resample n kp r sq rnd), k)

end Kalepy
