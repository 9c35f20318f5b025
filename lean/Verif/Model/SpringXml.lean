import Verif.Model.SpringSim
import Verif.Model.Xml

/-! # The description of the IMU on a spring -/

namespace RingLib
namespace sensors
open io

/-- `/repo/src/ring/algorithms/sensors.py:497-506` `_quasi_physical_sys_str` -/
def qpXml : Xml String :=
  .node "x_xy" [] [
    .node "options" [("gravity", "0 0 0")] [],
    .node "worldbody" [] [
      .node "body" [("name", "IMU"), ("joint", "p3d"), ("damping", "0.1 0.1 0.1"), ("spring_stiff", "3 3 3")] [
        .node "geom" [("type", "box"), ("mass", "0.002"), ("dim", "0.01 0.01 0.01")] []]]]

end sensors
end RingLib
