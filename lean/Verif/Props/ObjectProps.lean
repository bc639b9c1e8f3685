import Verif.Model.Object
import Verif.Props.GridProps

/-!
# Properties C06 – C08: poses, bounding boxes, monitor boxes (exact arithmetic)
-/

namespace Qbox.Props
open Qbox Scalar

/-- Specification: the rigid motion that rotates by `θ` and then translates by `pos`. -/
noncomputable def place (pos : V2 ℝ) (θ : ℝ) (q : V2 ℝ) : V2 ℝ :=
  ⟨Real.cos θ * q.x - Real.sin θ * q.y + pos.x, Real.sin θ * q.x + Real.cos θ * q.y + pos.y⟩

/-- Specification: the set of points an object occupies. -/
def occupied (o : Object ℝ) : Set (V2 ℝ) := {p | o.inside p = true}

/-- Specification: the set of points of a geometry in its own frame. -/
def shape (g : Geometry ℝ) : Set (V2 ℝ) := {q | g.inside q = true}

theorem inside_pullback (o : Object ℝ) (p : V2 ℝ) :
    o.inside p = o.geom.inside
      ⟨Real.cos o.theta * (p.x - o.pos.x) + Real.sin o.theta * (p.y - o.pos.y),
       -Real.sin o.theta * (p.x - o.pos.x) + Real.cos o.theta * (p.y - o.pos.y)⟩ := by
  unfold Object.inside
  congr 1
  ext <;> simp [rotVec] <;> ring

/-- C06: an object occupies exactly the image of its geometry under its pose. -/
theorem C06_occupied (o : Object ℝ) : occupied o = place o.pos o.theta '' shape o.geom := by
  have h := Real.sin_sq_add_cos_sq o.theta
  ext p
  simp only [occupied, shape, Set.mem_setOf_eq, Set.mem_image]
  rw [inside_pullback]
  constructor
  · intro hp
    refine ⟨_, hp, ?_⟩
    ext
    · simp only [place]; linear_combination (p.x - o.pos.x) * h
    · simp only [place]; linear_combination (p.y - o.pos.y) * h
  · rintro ⟨q, hq, rfl⟩
    convert hq using 2
    ext
    · simp only [place]; linear_combination q.x * h
    · simp only [place]; linear_combination q.y * h

/-- C06: moving an object translates the occupied set. -/
theorem C06_move (o : Object ℝ) (dr p : V2 ℝ) :
    p + dr ∈ occupied (o.pose (.move dr)) ↔ p ∈ occupied o := by
  simp only [occupied, Set.mem_setOf_eq, inside_pullback, Object.pose, V2.add_x, V2.add_y]
  rw [show p.x + dr.x - (o.pos.x + dr.x) = p.x - o.pos.x by ring,
      show p.y + dr.y - (o.pos.y + dr.y) = p.y - o.pos.y by ring]

/-- C06: rotating an object by `dθ` turns the occupied set about the object's position. -/
theorem C06_rotate (o : Object ℝ) (dθ : ℝ) (p : V2 ℝ) :
    place o.pos dθ (p - o.pos) ∈ occupied (o.pose (.rotate dθ)) ↔ p ∈ occupied o := by
  have h := Real.sin_sq_add_cos_sq dθ
  simp only [occupied, Set.mem_setOf_eq, inside_pullback, Object.pose, place, V2.sub_x, V2.sub_y,
    Real.cos_add, Real.sin_add]
  refine iff_of_eq (congrArg (fun z => (o.geom.inside z) = true) ?_)
  ext
  · simp only
    linear_combination (Real.cos o.theta * (p.x - o.pos.x) + Real.sin o.theta * (p.y - o.pos.y)) * h
  · simp only
    linear_combination
      (-Real.sin o.theta * (p.x - o.pos.x) + Real.cos o.theta * (p.y - o.pos.y)) * h

/-- Specification of the net position, most recent call first: the last set position plus later moves. -/
def netPos (p0 : V2 ℝ) : List (PoseOp ℝ) → V2 ℝ
  | [] => p0
  | .move dr :: r => netPos p0 r + dr
  | .setPosition p :: _ => p
  | .rotate _ :: r => netPos p0 r
  | .setTheta _ :: r => netPos p0 r

/-- Specification of the net angle, most recent call first: the last set angle plus later rotations. -/
def netTheta (t0 : ℝ) : List (PoseOp ℝ) → ℝ
  | [] => t0
  | .rotate d :: r => netTheta t0 r + d
  | .setTheta t :: _ => t
  | .move _ :: r => netTheta t0 r
  | .setPosition _ :: r => netTheta t0 r

/-- C06: after any history of pose calls the occupied set is the image of the geometry under the net pose. -/
theorem C06_history (o : Object ℝ) (ops : List (PoseOp ℝ)) :
    occupied (ops.foldl Object.pose o) =
      place (netPos o.pos ops.reverse) (netTheta o.theta ops.reverse) '' shape o.geom := by
  have key : ∀ ops : List (PoseOp ℝ), (ops.foldr (fun a b => Object.pose b a) o).pos = netPos o.pos ops ∧
      (ops.foldr (fun a b => Object.pose b a) o).theta = netTheta o.theta ops ∧
      (ops.foldr (fun a b => Object.pose b a) o).geom = o.geom := by
    intro ops
    induction ops with
    | nil => exact ⟨rfl, rfl, rfl⟩
    | cons a l ih =>
      obtain ⟨h1, h2, h3⟩ := ih
      rw [List.foldr_cons]
      revert h1 h2 h3
      generalize List.foldr (fun a b => Object.pose b a) o l = o'
      intro h1 h2 h3
      cases a <;> simp [Object.pose, netPos, netTheta, h1, h2, h3]
  rw [C06_occupied]
  have := key ops.reverse
  rw [List.foldr_reverse] at this
  rw [this.1, this.2.1, this.2.2]

/-- C06: the order of moves and rotations is irrelevant. -/
theorem C06_order_irrelevant (o : Object ℝ) (ops ops' : List (PoseOp ℝ)) (hp : ops.Perm ops')
    (hm : ∀ a ∈ ops, (∃ dr, a = .move dr) ∨ (∃ d, a = .rotate d)) :
    occupied (ops.foldl Object.pose o) = occupied (ops'.foldl Object.pose o) := by
  have : ops.foldl Object.pose o = ops'.foldl Object.pose o := by
    refine List.Perm.foldl_eq' hp ?_ o
    intro a ha b hb z
    rcases hm a ha with ⟨d, rfl⟩ | ⟨d, rfl⟩ <;> rcases hm b hb with ⟨e, rfl⟩ | ⟨e, rfl⟩ <;>
      simp [Object.pose]
    · ext <;> simp <;> ring
    · ring
  rw [this]

/-! ## C07 -/

theorem rotatedBox_sound (bx by' θ : ℝ) (q : V2 ℝ) (box : Vol ℝ) (hd : box.dim = ⟨2 * bx, 2 * by'⟩)
    (h1 : |q.x| ≤ bx) (h2 : |q.y| ≤ by') (pos : V2 ℝ) :
    InBox ((rotatedBox box θ).translate pos) (place pos θ q) := by
  have hc : |Real.cos θ * q.x| ≤ |Real.cos θ| * bx := by
    rw [abs_mul]; exact mul_le_mul_of_nonneg_left h1 (abs_nonneg _)
  have hs : |Real.sin θ * q.x| ≤ |Real.sin θ| * bx := by
    rw [abs_mul]; exact mul_le_mul_of_nonneg_left h1 (abs_nonneg _)
  have hc' : |Real.cos θ * q.y| ≤ |Real.cos θ| * by' := by
    rw [abs_mul]; exact mul_le_mul_of_nonneg_left h2 (abs_nonneg _)
  have hs' : |Real.sin θ * q.y| ≤ |Real.sin θ| * by' := by
    rw [abs_mul]; exact mul_le_mul_of_nonneg_left h2 (abs_nonneg _)
  rw [abs_le] at hc hs hc' hs'
  simp only [InBox, Vol.translate, Vol.make, rotatedBox, place, V2.add_x, V2.add_y, V2.sdiv_x, V2.sdiv_y,
    V2.neg_x, V2.neg_y, hd, absS_real, cos_real, sin_real, ofInt_real, abs_neg]
  push_cast
  refine ⟨?_, ?_, ?_, ?_⟩ <;> linarith

/-- C07 for blocks: every dimension, position, angle. -/
theorem C07_block (dim pos : V2 ℝ) (θ : ℝ) (name : String) (mat : Material ℝ) (p : V2 ℝ)
    (hp : p ∈ occupied ⟨name, .block dim, mat, pos, θ⟩) :
    ∃ b, (Object.mk name (.block dim) mat pos θ).bbox = some b ∧ InBox b p := by
  rw [C06_occupied] at hp
  obtain ⟨q, hq, rfl⟩ := hp
  refine ⟨_, rfl, ?_⟩
  simp only [shape, Set.mem_setOf_eq, Geometry.block, V2.cabs, ltb_real, V2.sub_x, V2.sub_y, V2.sdiv_x,
    V2.sdiv_y, absS_real, ofInt_real, Bool.not_eq_true', Bool.or_eq_false_iff, decide_eq_false_iff_not,
    not_lt] at hq
  push_cast at hq
  have hx : |q.x| ≤ dim.x / 2 := by linarith [hq.1]
  have hy : |q.y| ≤ dim.y / 2 := by linarith [hq.2]
  refine rotatedBox_sound (dim.x / 2) (dim.y / 2) θ q _ ?_ hx hy pos
  have h1 := abs_nonneg q.x
  have h2 := abs_nonneg q.y
  ext
  · simp only [Vol.make, V2.cabs, V2.sub_x, V2.sdiv_x, V2.neg_x, absS_real, ofInt_real]
    push_cast
    rw [show -dim.x / 2 - dim.x / 2 = -dim.x by ring, abs_neg, abs_of_nonneg (by linarith)]; ring
  · simp only [Vol.make, V2.cabs, V2.sub_y, V2.sdiv_y, V2.neg_y, absS_real, ofInt_real]
    push_cast
    rw [show -dim.y / 2 - dim.y / 2 = -dim.y by ring, abs_neg, abs_of_nonneg (by linarith)]; ring

/-- C07 for ellipses (of either sign of the radii; zero radii divide by zero and are excluded). -/
theorem C07_ellipse (rx ry : ℝ) (hrx : rx ≠ 0) (hry : ry ≠ 0) (pos : V2 ℝ) (θ : ℝ) (name : String)
    (mat : Material ℝ) (p : V2 ℝ) (hp : p ∈ occupied ⟨name, .ellipse rx ry, mat, pos, θ⟩) :
    ∃ b, (Object.mk name (.ellipse rx ry) mat pos θ).bbox = some b ∧ InBox b p := by
  rw [C06_occupied] at hp
  obtain ⟨q, hq, rfl⟩ := hp
  refine ⟨_, rfl, ?_⟩
  simp only [shape, Set.mem_setOf_eq, Geometry.ellipse, ltb_real, npow_real, decide_eq_true_eq] at hq
  have hx : |q.x| ≤ |rx| := by
    have h : (q.x / rx) ^ 2 ≤ 1 := by nlinarith [sq_nonneg (q.y / ry)]
    rw [sq_le_one_iff_abs_le_one, abs_div, div_le_one (abs_pos.mpr hrx)] at h
    exact h
  have hy : |q.y| ≤ |ry| := by
    have h : (q.y / ry) ^ 2 ≤ 1 := by nlinarith [sq_nonneg (q.x / rx)]
    rw [sq_le_one_iff_abs_le_one, abs_div, div_le_one (abs_pos.mpr hry)] at h
    exact h
  refine rotatedBox_sound |rx| |ry| θ q _ ?_ hx hy pos
  ext
  · simp only [Vol.make, V2.cabs, V2.sub_x, absS_real]
    rw [show -rx - rx = -(2 * rx) by ring, abs_neg, abs_mul, abs_two]
  · simp only [Vol.make, V2.cabs, V2.sub_y, absS_real]
    rw [show -ry - ry = -(2 * ry) by ring, abs_neg, abs_mul, abs_two]

/-- C07 for cylinders with non-negative radius. -/
theorem C07_cylinder (r : ℝ) (hr : 0 ≤ r) (pos : V2 ℝ) (θ : ℝ) (name : String)
    (mat : Material ℝ) (p : V2 ℝ) (hp : p ∈ occupied ⟨name, .cylinder r, mat, pos, θ⟩) :
    ∃ b, (Object.mk name (.cylinder r) mat pos θ).bbox = some b ∧ InBox b p := by
  have h := Real.sin_sq_add_cos_sq θ
  refine ⟨_, rfl, ?_⟩
  simp only [occupied, Set.mem_setOf_eq, inside_pullback, Geometry.cylinder, ltb_real, npow_real,
    decide_eq_true_eq, V2.sqNorm] at hp
  have hd : (p.x - pos.x) ^ 2 + (p.y - pos.y) ^ 2 < r ^ 2 := by
    refine lt_of_eq_of_lt ?_ hp
    linear_combination -((p.x - pos.x) ^ 2 + (p.y - pos.y) ^ 2) * h
  have hx : |p.x - pos.x| ≤ r := by
    apply abs_le_of_sq_le_sq _ hr; nlinarith [sq_nonneg (p.y - pos.y)]
  have hy : |p.y - pos.y| ≤ r := by
    apply abs_le_of_sq_le_sq _ hr; nlinarith [sq_nonneg (p.x - pos.x)]
  rw [abs_le] at hx hy
  simp only [InBox, Vol.translate, Vol.make, V2.add_x, V2.add_y]
  refine ⟨?_, ?_, ?_, ?_⟩ <;> linarith

/-- C07: a negative radius is accepted by the constructor and gives a non-empty object with a bounding box that
contains none of its points. -/
theorem C07_cylinder_negative_radius_false (mat : Material ℝ) :
    let o : Object ℝ := ⟨"c", .cylinder (-1), mat, ⟨0, 0⟩, 0⟩
    (⟨0, 0⟩ : V2 ℝ) ∈ occupied o ∧ ∃ b, o.bbox = some b ∧ ∀ p, ¬ InBox b p := by
  intro o
  refine ⟨?_, _, rfl, ?_⟩
  · simp only [occupied, Set.mem_setOf_eq, inside_pullback, o, Geometry.cylinder, V2.sqNorm]
    simp
  · intro p hp
    simp only [InBox, Vol.translate, Vol.make, V2.add_x, V2.add_y, o] at hp
    linarith [hp.1, hp.2.1]

/-! ## C08 -/

/-- The box `v` contains `p` with clearance `d` on all four sides. -/
def InBoxBy (v : Vol ℝ) (d : ℝ) (p : V2 ℝ) : Prop :=
  v.a.x + d ≤ p.x ∧ p.x ≤ v.b.x - d ∧ v.a.y + d ≤ p.y ∧ p.y ≤ v.b.y - d

/-- The shapes of the library with admissible sizes. -/
inductive LibShape : Geometry ℝ → Prop
  | block (dim : V2 ℝ) : LibShape (.block dim)
  | ellipse (rx ry : ℝ) (hx : rx ≠ 0) (hy : ry ≠ 0) : LibShape (.ellipse rx ry)
  | cylinder (r : ℝ) (hr : 0 ≤ r) : LibShape (.cylinder r)

/-- C07, all shapes. -/
theorem C07_all (o : Object ℝ) (hg : LibShape o.geom) (p : V2 ℝ) (hp : p ∈ occupied o) :
    ∃ b, o.bbox = some b ∧ InBox b p := by
  obtain ⟨name, geom, mat, pos, θ⟩ := o
  cases hg with
  | block dim => exact C07_block dim pos θ name mat p hp
  | ellipse rx ry hx hy => exact C07_ellipse rx ry hx hy pos θ name mat p hp
  | cylinder r hr => exact C07_cylinder r hr pos θ name mat p hp

/-- C07 holds along every history of pose calls. -/
theorem C07_history (o : Object ℝ) (hg : LibShape o.geom) (ops : List (PoseOp ℝ)) (p : V2 ℝ)
    (hp : p ∈ occupied (ops.foldl Object.pose o)) :
    ∃ b, (ops.foldl Object.pose o).bbox = some b ∧ InBox b p := by
  refine C07_all _ ?_ p hp
  suffices (ops.foldl Object.pose o).geom = o.geom by rw [this]; exact hg
  clear hp
  induction ops generalizing o with
  | nil => rfl
  | cons a l ih =>
    have h : (o.pose a).geom = o.geom := by cases a <;> rfl
    rw [List.foldl_cons, ih _ (by rw [h]; exact hg), h]

/-- C08: the box of `get_box_monitor` contains the object with clearance `buffer` on all sides. -/
theorem C08_monitor_box (o : Object ℝ) (hg : LibShape o.geom) (buffer : ℤ) :
    ∃ v, o.monitorBox buffer = .ok v ∧ ∀ p ∈ occupied o, InBoxBy v buffer p := by
  have hb : ∃ b, o.bbox = some b := by
    obtain ⟨name, geom, mat, pos, θ⟩ := o
    cases hg <;> exact ⟨_, rfl⟩
  obtain ⟨b, hb⟩ := hb
  refine ⟨b.pad (buffer : ℝ), by simp [Object.monitorBox, hb], ?_⟩
  intro p hp
  obtain ⟨b', hb', hin⟩ := C07_all o hg p hp
  rw [hb] at hb'
  cases hb'
  simp only [InBox, InBoxBy, Vol.pad, Vol.make, V2.add_x, V2.add_y, V2.sub_x, V2.sub_y] at *
  refine ⟨?_, ?_, ?_, ?_⟩ <;> linarith [hin.1, hin.2.1, hin.2.2.1, hin.2.2.2]

/-- The hypotheses of C06–C08 are met by a rotated block that really contains points. -/
example : LibShape (.block ⟨2, 1⟩) ∧
    (⟨3, 4⟩ : V2 ℝ) ∈ occupied ⟨"b", .block ⟨2, 1⟩, ⟨"m", .simple vacuum⟩, ⟨3, 4⟩, 1⟩ := by
  refine ⟨.block _, ?_⟩
  rw [C06_occupied]
  refine ⟨⟨0, 0⟩, ?_, ?_⟩
  · simp only [shape, Set.mem_setOf_eq, Geometry.block, V2.cabs]
    norm_num
  · simp [place]

end Qbox.Props
