/-
The static transform of `map_tf_generator/src/map_tf_generator_node.cpp` with its frames.
-/
import Verif.Model.Mapping

set_option autoImplicit false

namespace Verif.Frames

/-- The message sent by the static broadcaster: frames and translation. -/
structure StaticTransform where
  frame : String
  child : String
  /-- `none` stands for NaN. -/
  translation : Option (Fin 3 → ℝ)

/-- `onPointCloud` (`map_tf_generator_node.cpp` 54-90): `map_frame_` and `viewer_frame_` are the
parameters of lines 37-38; the rotation is the identity. -/
noncomputable def broadcastViewer (mapFrame viewerFrame : String) (points : List (Fin 3 → ℝ)) :
    StaticTransform := ⟨mapFrame, viewerFrame, Mapping.onPointCloud points⟩

end Verif.Frames
