/-
The programs that exchange map files: `mapping/src/mapping.cpp`, `localization/app/localization.cpp`,
`map_loader/src/map_loader.cpp`, and `SaveMapIfNotEmpty` with `EdgeSurfaceMap` of `localization`.
-/
import Verif.Model.Mapping

set_option autoImplicit false

namespace Verif.Apps

open Verif Verif.Rot Verif.Mapping

variable {P : Type}

/-- A file: a readable PCD file with its points, or one that PCL cannot read. -/
inductive File (P : Type) where
  | pcd (cloud : Cloud P)
  | unreadable

/-- The files by name. Simplifications: directories exist and are writable; names are compared as written. -/
abbrev Fs (P : Type) := String → Option (File P)

/-- `pcl::io::save`: the file is created or replaced. -/
def save (fs : Fs P) (name : String) (cloud : Cloud P) : Fs P :=
  fun n => if n = name then some (.pcd cloud) else fs n

/-- `pcl::io::loadPCDFile`: status and cloud. On failure the cloud is what was passed in, here an empty one.
Points are converted to the point type of the reader by `conv`; fields without a counterpart are
dropped. -/
def loadPCDFile {Q : Type} (conv : Pt P → Pt Q) (fs : Fs P) (name : String) : ℤ × Cloud Q :=
  match fs name with
  | some (.pcd cloud) => (0, cloud.map conv)
  | _ => (-1, [])

/-! ### `mapping.cpp` -/

/-- `main` (84-104): the builder receives the synchronised pairs, then the map is saved. Simplifications: the
pairs are delivered one after the other (the node is in one callback group, so the executor does not run its
callbacks concurrently); `garbage` is the uninitialised previous transform. -/
noncomputable def mappingMain (garbage : Pose) (msgs : List (Cloud P × Pose)) (fs : Fs P) : Fs P :=
  let builder := msgs.foldl (fun b m => b.callback m.1 m.2) (MapBuilder.new garbage)
  match builder.saveMap "maps/edge.pcd" with
  | some (name, cloud) => save fs name cloud
  | none => fs

/-! ### `localization.cpp` -/

/-- What `main` does first: it returns, or it starts to spin with a localizer for two maps. -/
inductive Start (Q : Type) where
  | exit (code : ℤ)
  | spin (edge surface : Cloud Q) (maxIter : ℤ)

/-- `CheckMapPathExists` (56-65). -/
def checkMapPathExists (fs : Fs P) (name : String) : Bool := (fs name).isSome

/-- `main` (67-89) up to `spin`; the two paths and `max_iter` are the constants of lines 51-54. -/
def localizationMain {Q : Type} (conv : Pt P → Pt Q) (fs : Fs P) : Start Q :=
  if !checkMapPathExists fs "maps/edge.pcd" then .exit (-1)
  else if !checkMapPathExists fs "maps/surface.pcd" then .exit (-1)
  else
    let edge := (loadPCDFile conv fs "maps/edge.pcd").2
    let surface := (loadPCDFile conv fs "maps/surface.pcd").2
    .spin edge surface 40

/-! ### `map_loader.cpp` -/

/-- The message that is published: frame and points. -/
structure MapMsg (P : Type) where
  frame : String
  cloud : Cloud P

/-- `LoadMap` (44-50): the status is not looked at. -/
def loadMap (fs : Fs P) (name : String) : MapMsg P := ⟨"map", (loadPCDFile id fs name).2⟩

/-- The constructor of `MapLoaderNode` (55-76): the published messages. -/
def mapLoader (fs : Fs P) (pcdFilename : String) : Res (List (MapMsg P)) :=
  if pcdFilename.length = 0 then .error .invalidArgument else .ok [loadMap fs pcdFilename]

/-! ### `map_io.hpp`, `edge_surface_map.hpp` -/

/-- `SaveMapIfNotEmpty` (`map_io.hpp` 39-56). -/
def saveMapIfNotEmpty (fs : Fs P) (name : String) (cloud : Cloud P) : Fs P :=
  if cloud.length = 0 then fs else save fs name cloud

/-- `EdgeSurfaceMap` (`edge_surface_map.hpp` 38-76). The class is not used in the repository; it includes a header that
does not exist (34) and names the template `RecentScans` without its argument. It is modelled as meant. -/
structure EdgeSurfaceMap (P : Type) where
  nLocal : ℤ
  edge : RecentScans P
  surface : RecentScans P

/-- The constructor (41-42). -/
def EdgeSurfaceMap.new (nLocal : ℤ) : EdgeSurfaceMap P := ⟨nLocal, RecentScans.new, RecentScans.new⟩

/-- `Add` (49-56). -/
def EdgeSurfaceMap.add (m : EdgeSurfaceMap P) (pose : Pose) (scan : Cloud P × Cloud P) : EdgeSurfaceMap P :=
  { m with
    edge := m.edge.add pose scan.1
    surface := m.surface.add pose scan.2 }

/-- `IsEmpty` (44-47). -/
def EdgeSurfaceMap.isEmpty (m : EdgeSurfaceMap P) : Bool := m.edge.isEmpty && m.surface.isEmpty

/-- `GetRecent` (58-64). -/
def EdgeSurfaceMap.getRecent (m : EdgeSurfaceMap P) : Res (Cloud P × Cloud P) := do
  let e ← m.edge.getRecent m.nLocal
  let s ← m.surface.getRecent m.nLocal
  .ok (e, s)

/-- `Save` (66-70). -/
def EdgeSurfaceMap.save (m : EdgeSurfaceMap P) (dirname : String) (fs : Fs P) : Fs P :=
  let fs := saveMapIfNotEmpty fs (dirname ++ "/" ++ "edge.pcd") m.edge.getAll
  saveMapIfNotEmpty fs (dirname ++ "/" ++ "surface.pcd") m.surface.getAll

end Verif.Apps
