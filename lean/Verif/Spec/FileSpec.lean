import Verif.Model.Output
import Verif.Spec.DftSpec

/-! # What the file is meant to hold outside the group `fields` -/

namespace Qbox.Spec
open Qbox Scalar

variable {K : Type} [Scalar K]

/-- The later content of a data set: the same, or more rows. -/
inductive Extends : H5Obj K → H5Obj K → Prop
  | same (n : H5Obj K) : Extends n n
  | more (rows new : List (List K)) : Extends (.series rows) (.series (rows ++ new))

/-- Everything in the file is still there, with at most more rows. -/
structure Keeps (w w' : World K) : Prop where
  tree : ∀ p n, w.tree.at p = some n → ∃ n', w'.tree.at p = some n' ∧ Extends n n'
  groups : ∀ x ∈ w.sim.file.groups, x ∈ w'.sim.file.groups
  rows : ∀ k rs, w.sim.file.rows k = some rs → ∃ new, w'.sim.file.rows k = some (rs ++ new)

/-- The group of an object. -/
def objectGroup (dyn : Bool) (o : Object K) : Path := [if dyn then "dynamic_objects" else "objects", o.geom.group, o.name]

/-- The file has the parameters of a material under its name. -/
def HasMaterial (t : Tree K) (m : Material K) : Prop :=
  match m.kind with
  | .simple p => t.at ["materials", m.name, "material_type"] = some (.text "simple") ∧
      t.at ["materials", m.name, "eps"] = some (.nums [p.eps]) ∧ t.at ["materials", m.name, "mu"] = some (.nums [p.mu]) ∧
      t.at ["materials", m.name, "conduc"] = some (.nums [p.conduc])
  | .debye p => t.at ["materials", m.name, "material_type"] = some (.text "debye") ∧
      t.at ["materials", m.name, "eps_inf"] = some (.nums [p.epsInf]) ∧
      t.at ["materials", m.name, "delta_epsilon"] = some (.nums (p.poles.map (·.dEps))) ∧
      t.at ["materials", m.name, "tau"] = some (.nums (p.poles.map (·.tau)))
  | .drude p => t.at ["materials", m.name, "material_type"] = some (.text "drude") ∧
      t.at ["materials", m.name, "eps_inf"] = some (.nums [p.epsInf]) ∧
      t.at ["materials", m.name, "omega_0"] = some (.nums (p.poles.map (·.omega))) ∧
      t.at ["materials", m.name, "gamma"] = some (.nums (p.poles.map (·.gamma)))
  | .lorentz p => t.at ["materials", m.name, "material_type"] = some (.text "lorentz") ∧
      t.at ["materials", m.name, "eps_inf"] = some (.nums [p.epsInf]) ∧
      t.at ["materials", m.name, "omega_0"] = some (.nums (p.poles.map (·.omega))) ∧
      t.at ["materials", m.name, "gamma"] = some (.nums (p.poles.map (·.gamma))) ∧
      t.at ["materials", m.name, "delta_epsilon"] = some (.nums (p.poles.map (·.dEps)))

/-- The file has, in the group of the object, its shape and a reference to the group of its material. -/
structure HasShape (t : Tree K) (dyn : Bool) (o : Object K) : Prop where
  params : ∀ e ∈ o.geom.params, t.at (objectGroup dyn o ++ [e.1]) = some (.nums e.2)
  material : t.at (objectGroup dyn o ++ ["material"]) = some (.ref ["materials", o.mat.name])

/-- The name under which a reader of the file looks for a quantity. -/
def resultName : Quantity K → String
  | .flux => "flux"
  | .force => "force"
  | .torque _ => "torque"
  | .ntff _ _ => "ntff_point"
  | .sphere _ _ => "ntff_sphere"

/-- The file has the pose of an object that cannot move. -/
def HasPose (t : Tree K) (o : Object K) : Prop :=
  t.at (objectGroup false o ++ ["position"]) = some (.nums [o.pos.x, o.pos.y]) ∧
  t.at (objectGroup false o ++ ["theta"]) = some (.nums [o.theta])

/-- The file has a list of poses of an object that can move. -/
def HasPoses (t : Tree K) (o : Object K) (l : List (V2 K × K)) : Prop :=
  t.at (objectGroup true o ++ ["position"]) = some (.series (l.map fun e => [e.1.x, e.1.y])) ∧
  t.at (objectGroup true o ++ ["theta"]) = some (.series (l.map fun e => [e.2]))

/-- The pose after a pose call. -/
def moved : V2 K × K → PoseOp K → V2 K × K
  | (p, th), .move d => (⟨p.x + d.x, p.y + d.y⟩, th)
  | (p, th), .rotate d => (p, th + d)
  | (_, th), .setPosition q => (q, th)
  | (p, _), .setTheta d => (p, d)

/-- The poses of object number `i` at the moments at which a program calls its `write_current`. -/
def trajectory (i : ℕ) : V2 K × K → List (Call K) → List (V2 K × K)
  | _, [] => []
  | s, .op (.pose k p) :: l => trajectory i (if k = i then moved s p else s) l
  | s, .writeCurrent k :: l => (if k = i then [s] else []) ++ trajectory i s l
  | s, _ :: l => trajectory i s l

/-- The calls of a program on the simulation, without those that only write properties or results. -/
def simOps : List (Call K) → List (Op K)
  | [] => []
  | .op o :: l => o :: simOps l
  | .addDynamic o :: l => .addObject o :: simOps l
  | _ :: l => simOps l

/-- The object that a call adds. -/
def added : Call K → Option (Object K)
  | .op (.addObject o) => some o
  | .addDynamic o => some o
  | _ => none

/-- Objects with equal names of materials have equal materials. -/
def NamesMaterials (cs : List (Call K)) : Prop :=
  ∀ c ∈ cs, ∀ c' ∈ cs, ∀ o o', added c = some o → added c' = some o' → o.mat.name = o'.mat.name → o.mat.kind = o'.mat.kind

/-- The groups in the file for what a call adds. -/
def claims : Call K → List Path
  | .op (.addObject o) => [objectGroup false o]
  | .addDynamic o => [objectGroup true o]
  | .op (.addSource s) => [["sources", match s.kind with | .point .. => "point" | .line .. => "line", s.name]]
  | .op (.addMonitor (.surf m)) => [["monitors", "surface_monitor", m.name]]
  | .op (.addMonitor (.box m)) => m.faces.map (fun f => ["monitors", "surface_monitor", f.name]) ++ [["monitors", "box_monitor", m.name]]
  | .op (.addMonitor (.vol m)) => [["monitors", "volume_monitor", m.name]]
  | .op (.addMonitor (.point m)) => [["monitors", "point_monitor", m.name]]
  | .op (.addMonitor (.cyl m)) => [["monitors", "cylinder_monitor", m.name]]
  | .op (.setTfsf _ _) => [["sources", "tfsf"]]
  | _ => []

/-- No two things of one kind have the same name, and there is at most one incident wave. -/
def DistinctNames (cs : List (Call K)) : Prop := (cs.flatMap claims).Nodup

/-- What a shape or a time profile writes has names of its own: true of those of the library. -/
def PlainNames : Call K → Prop
  | .op (.addObject o) => ("position" :: "theta" :: "material" :: o.geom.params.map (·.1)).Nodup
  | .addDynamic o => ("position" :: "theta" :: "material" :: o.geom.params.map (·.1)).Nodup
  | .op (.addSource s) => ("position" :: "p1" :: "p2" :: "sign" :: s.tp.params.map (·.1)).Nodup
  | _ => True

/-- A call that does not write results. -/
def NoResults : Call K → Prop
  | .writeSpectra _ => False
  | .report _ _ => False
  | .tfsfFlux => False
  | _ => True

/-- The Fourier sums of the samples `l` of signal `x` as a table: one row per position, one column per frequency. -/
def table {P : Type} (pos : List P) (freq : List K) (x : String) (l : List (Sample K P)) : List (Cx K) :=
  pos.flatMap fun p => freq.map fun f => ⟨cosSum f x p 0 l, sinSum f x p 0 l⟩

end Qbox.Spec
