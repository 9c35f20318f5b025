import Mathlib.Analysis.SpecialFunctions.Trigonometric.Basic
import Mathlib.Order.Interval.Set.Basic
import Mathlib.Order.Monotone.Defs

/-!
# What random trajectories should satisfy
-/

namespace RingLib

/-- `f` runs through the knots `(xp[k], fp[k])`, is monotone between neighbouring knots, and constant
after the last one. -/
structure Interpolates (xp fp : List ℝ) (f : ℝ → ℝ) : Prop where
  knot : ∀ k, ∀ h : k < xp.length, ∀ h' : k < fp.length, f xp[k] = fp[k]
  up : ∀ k, ∀ h : k + 1 < xp.length, ∀ h' : k + 1 < fp.length, fp[k] ≤ fp[k + 1] →
    ∀ x y, xp[k] ≤ x → x ≤ y → y ≤ xp[k + 1] → f x ≤ f y
  down : ∀ k, ∀ h : k + 1 < xp.length, ∀ h' : k + 1 < fp.length, fp[k + 1] ≤ fp[k] →
    ∀ x y, xp[k] ≤ x → x ≤ y → y ≤ xp[k + 1] → f y ≤ f x
  between : ∀ k, ∀ h : k + 1 < xp.length, ∀ h' : k + 1 < fp.length,
    ∀ x, xp[k] ≤ x → x ≤ xp[k + 1] → min fp[k] fp[k + 1] ≤ f x ∧ f x ≤ max fp[k] fp[k + 1]
  after : ∀ h : 0 < xp.length, ∀ h' : 0 < fp.length, ∀ x, xp[xp.length - 1] ≤ x →
    f x = fp[fp.length - 1]

/-- a non-decreasing map of the unit interval onto itself -/
structure UnitMap (w : ℝ → ℝ) : Prop where
  zero : w 0 = 0
  one : w 1 = 1
  mono : MonotoneOn w (Set.Icc 0 1)
  onto : ∀ y ∈ Set.Icc (0 : ℝ) 1, ∃ x ∈ Set.Icc (0 : ℝ) 1, w x = y

theorem UnitMap.id : UnitMap (fun x : ℝ => x) :=
  ⟨rfl, rfl, fun _ _ _ _ h => h, fun y h => ⟨y, h, rfl⟩⟩

/-- a monotone path from `a` to `b` -/
structure TwoPoint (g : ℝ → ℝ → ℝ → ℝ) : Prop where
  zero : ∀ a b, g a b 0 = a
  one : ∀ a b, g a b 1 = b
  up : ∀ a b, a ≤ b → ∀ x y, 0 ≤ x → x ≤ y → y ≤ 1 → g a b x ≤ g a b y
  down : ∀ a b, b ≤ a → ∀ x y, 0 ≤ x → x ≤ y → y ≤ 1 → g a b y ≤ g a b x

end RingLib

namespace RingLib

/-- The knots of a trajectory of duration `T` that starts with value `x0`: they begin at time 0, each
one follows its predecessor by the rule `Q`, and the last one, and no other, lies beyond `T`. -/
structure IsKnots (Q : ℝ × ℝ → ℝ × ℝ → Prop) (x0 T : ℝ) (kn : List (ℝ × ℝ)) : Prop where
  start : kn.head? = some (0, x0)
  chain : kn.IsChain Q
  inside : ∀ k ∈ kn.dropLast, k.1 ≤ T
  beyond : ∀ k ∈ kn.getLast?, T < k.1

end RingLib
