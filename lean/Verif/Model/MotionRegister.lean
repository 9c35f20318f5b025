import Verif.Model.MotionConfig
import Verif.Model.Utils

/-!
# The register of motions: `/repo/src/ring/algorithms/jcalc.py:194-330`

The method `"sigmoid"` without a number is `.sigmoid 1.5` (`/repo/src/ring/algorithms/_random.py:288-291`).
-/

namespace RingLib
namespace jcalc
open random

/-- `jnp.deg2rad` -/
noncomputable def deg2rad (x : ℝ) : ℝ := x * Real.pi / 180

/-- `/repo/src/ring/algorithms/jcalc.py:203-211` -/
noncomputable def hinUndHer : MotionConfig where
  t_min := 0.3
  t_max := .const 1.5
  dang_max := .const 3
  delta_ang_min := .const 0.5
  pos_min := .const (-1.5)
  pos_max := .const 1.5
  randomized_interpolation_angle := true

/-- `/repo/src/ring/algorithms/jcalc.py:212-222` -/
noncomputable def langsam : MotionConfig where
  t_min := 0.2
  t_max := .const 1.25
  dang_max := .const 2
  randomized_interpolation_angle := true
  dang_max_free_spherical := .const 2
  cdf_bins_min := 1
  cdf_bins_max := some 3
  pos_min := .const (-1.5)
  pos_max := .const 1.5

/-- `/repo/src/ring/algorithms/jcalc.py:223-227` -/
noncomputable def standard : MotionConfig where
  randomized_interpolation_angle := true
  cdf_bins_min := 1
  cdf_bins_max := some 5

/-- `/repo/src/ring/algorithms/jcalc.py:257-268` -/
noncomputable def expFastNoSig : MotionConfig where
  t_min := 0.4
  t_max := .const 1.1
  dang_max := .const (deg2rad 180)
  delta_ang_min := .const (deg2rad 60)
  delta_ang_max := .const (deg2rad 110)
  pos_min := .const (-1.5)
  pos_max := .const 1.5
  randomized_interpolation_angle := true
  cdf_bins_min := 1
  cdf_bins_max := some 3

/-- `/repo/src/ring/algorithms/jcalc.py:228-240` -/
noncomputable def expFast : MotionConfig where
  t_min := 0.4
  t_max := .const 1.1
  dang_max := .const (deg2rad 180)
  delta_ang_min := .const (deg2rad 60)
  delta_ang_max := .const (deg2rad 110)
  pos_min := .const (-1.5)
  pos_max := .const 1.5
  range_of_motion_hinge_method := .sigmoid 1.5
  randomized_interpolation_angle := true
  cdf_bins_min := 1
  cdf_bins_max := some 3

/-- `/repo/src/ring/algorithms/jcalc.py:241-256` -/
noncomputable def expSlow : MotionConfig where
  t_min := 0.75
  t_max := .const 3
  dang_min := .const 0.1
  dang_max := .const 1
  dang_min_free_spherical := .const 0.1
  delta_ang_min := .const 0.4
  dang_max_free_spherical := .const 1
  delta_ang_max_free_spherical := .const 1
  dpos_max := .const 0.3
  cor_dpos_max := .const 0.3
  range_of_motion_hinge_method := .sigmoid 1.5
  randomized_interpolation_angle := true
  cdf_bins_min := 1
  cdf_bins_max := some 5

/-- `/repo/src/ring/algorithms/jcalc.py:269-283` -/
noncomputable def expSlowNoSig : MotionConfig where
  t_min := 0.75
  t_max := .const 3
  dang_min := .const 0.1
  dang_max := .const 1
  dang_min_free_spherical := .const 0.1
  delta_ang_min := .const 0.4
  dang_max_free_spherical := .const 1
  delta_ang_max_free_spherical := .const 1
  dpos_max := .const 0.3
  cor_dpos_max := .const 0.3
  randomized_interpolation_angle := true
  cdf_bins_min := 1
  cdf_bins_max := some 3

/-- `/repo/src/ring/algorithms/jcalc.py:284-298` -/
noncomputable def verySlow : MotionConfig where
  t_min := 1.5
  t_max := .const 5
  dang_min := .const (deg2rad 1)
  dang_max := .const (deg2rad 30)
  delta_ang_min := .const (deg2rad 20)
  dang_min_free_spherical := .const (deg2rad 1)
  dang_max_free_spherical := .const (deg2rad 10)
  delta_ang_min_free_spherical := .const (deg2rad 5)
  dpos_max := .const 0.3
  cor_dpos_max := .const 0.3
  randomized_interpolation_angle := true
  cdf_bins_min := 1
  cdf_bins_max := some 3

/-- `/repo/src/ring/algorithms/jcalc.py:202-299` the register before it is extended -/
noncomputable def registered0 : Dict MotionConfig :=
  [("hinUndHer", hinUndHer), ("langsam", langsam), ("standard", standard), ("expFast", expFast), ("expSlow", expSlow),
   ("expFastNoSig", expFastNoSig), ("expSlowNoSig", expSlowNoSig), ("verySlow", verySlow)]

/-- the `changes` of `/repo/src/ring/algorithms/jcalc.py:305-311` -/
noncomputable def changes_free_cor (dang dpos : ℝ) : List (String × ℝ) :=
  [("dang_max_free_spherical", dang), ("dpos_max", dpos), ("cor_dpos_max", dpos), ("t_min", 1.5), ("t_max", 15)]

/-- `/repo/src/ring/algorithms/jcalc.py:302-315` `_joint_specific_overwrites_free_cor` (of a configuration) -/
noncomputable def _joint_specific_overwrites_free_cor (c : MotionConfig) (dang dpos : ℝ) : MotionConfig :=
  { c with joint_type_specific_overwrites := [("free", changes_free_cor dang dpos), ("cor", changes_free_cor dang dpos)] }

/-- `/repo/src/ring/algorithms/jcalc.py:318-330` the register -/
noncomputable def registered : Dict MotionConfig :=
  registered0 ++
    [("expSlow-S", _joint_specific_overwrites_free_cor expSlow 0.2 0.1),
     ("expFast-S", _joint_specific_overwrites_free_cor expFast 0.2 0.1),
     ("hinUndHer-S", _joint_specific_overwrites_free_cor hinUndHer 0.2 0.1),
     ("standard-S", _joint_specific_overwrites_free_cor standard 0.2 0.1)] ++
    [("expSlow-S+", _joint_specific_overwrites_free_cor expSlow 0.1 0.05),
     ("expFast-S+", _joint_specific_overwrites_free_cor expFast 0.1 0.05),
     ("hinUndHer-S+", _joint_specific_overwrites_free_cor hinUndHer 0.1 0.05),
     ("standard-S+", _joint_specific_overwrites_free_cor standard 0.1 0.05)]

/-- `/repo/src/ring/algorithms/jcalc.py:194-196` `MotionConfig.from_register` -/
noncomputable def from_register (name : String) : Py MotionConfig :=
  match registered.lookup name with
  | some c => .ok c
  | none => .error .key

end jcalc
end RingLib
