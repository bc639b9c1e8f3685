import Verif.Lemmas.Subtract
import Verif.Props.SimProps
import Verif.Props.CylFluxProps
import Verif.Props.SurfDomainProps

/-!
# C14: no undefined behaviour in any history of calls that stays inside the domain
-/

namespace Qbox.Props
open Qbox Scalar Spec

set_option linter.unusedSectionVars false

/-! ## What "inside the domain" means -/

/-- A freshly constructed monitor inside the domain. Updating a point monitor uses a dangling reference wherever it is (`C43_dangling`); `B` says whether
point monitors are considered. -/
inductive MonitorInside (B : Prop) (g : Grid ℝ) : Monitor ℝ → Prop
  | point (hB : B) (name : String) (p : V2 ℝ) (tag : DftTag) (freq : List ℝ) (h : InGrid g (g.toGrid p)) :
      MonitorInside B g (.point (.make name p tag freq))
  | surf (name : String) (a b : V2 ℝ) (sg : Sgn) (s : Surf ℝ) (tag : DftTag) (freq : List ℝ) (hs : Surf.make a b sg = .ok s)
      (hne : g.toGrid a ≠ g.toGrid b) (ha : InnerNode g (g.toGrid a)) (hb : InnerNode g (g.toGrid b)) :
      MonitorInside B g (.surf (.make name s tag freq))
  | box (name : String) (a b : V2 ℝ) (tag : DftTag) (freq : List ℝ) (m : BoxMon ℝ) (hm : BoxMon.make name (Vol.make a b) tag freq = .ok m)
      (hx : (g.toGrid a).x < (g.toGrid b).x) (hy : (g.toGrid a).y < (g.toGrid b).y)
      (ha : InnerNode g (g.toGrid a)) (hb : InnerNode g (g.toGrid b)) : MonitorInside B g (.box m)
  | vol (name : String) (a b : V2 ℝ) (tag : DftTag) (freq : List ℝ) (ha : InGrid g (g.toGrid a)) (hb : InGrid g (g.toGrid b))
      (hx : (g.toGrid a).x ≤ (g.toGrid b).x) (hy : (g.toGrid a).y ≤ (g.toGrid b).y) :
      MonitorInside B g (.vol (.make name (Vol.make a b) tag freq))
  | cyl (name : String) (surf : CylSurf ℝ) (tag : DftTag) (freq : List ℝ) (hr : 0 ≤ surf.radius)
      (h1 : g.dx * g.dx ≤ surf.center.x - surf.radius) (h2 : g.dx * g.dx ≤ surf.center.y - surf.radius)
      (h3 : surf.center.x + surf.radius ≤ (g.Nx - 1) * g.dx) (h4 : surf.center.y + surf.radius ≤ (g.Ny - 1) * g.dx) :
      MonitorInside B g (.cyl (.make name surf tag freq))

/-- The nodes of a time monitor are nodes of the grid; volumes are given lower corner first. -/
inductive ShapeInside (g : Grid ℝ) : TShape ℝ → Prop
  | point (p : V2 ℝ) (h : InGrid g (g.toGrid p)) : ShapeInside g (.point p)
  | surface (a b : V2 ℝ) (sg : Sgn) (s : Surf ℝ) (hs : Surf.make a b sg = .ok s) (hne : g.toGrid a ≠ g.toGrid b)
      (ha : InGrid g (g.toGrid a)) (hb : InGrid g (g.toGrid b)) : ShapeInside g (.surface s)
  | volume (a b : V2 ℝ) (ha : InGrid g (g.toGrid a)) (hb : InGrid g (g.toGrid b))
      (hx : (g.toGrid a).x ≤ (g.toGrid b).x) (hy : (g.toGrid a).y ≤ (g.toGrid b).y) : ShapeInside g (.volume (Vol.make a b))

/-- A freshly constructed time monitor inside the domain whose repeat count is not `2^31` (for which the counter overflows, `C44_overflow`). -/
def TMonInside (g : Grid ℝ) (m : TMon ℝ) : Prop :=
  ShapeInside g m.shape ∧ ∃ r : ℕ, r < 2 ^ 32 ∧ r ≠ 2 ^ 31 ∧ m.outFreq = Every.make r

/-- The history stays inside the domain. `objs` are the objects placed before it, as posed at its beginning: the objects only matter when they are
painted. -/
def Inside (B : Prop) (g : Grid ℝ) : List (Object ℝ) → List (Op ℝ) → Prop
  | _, [] => True
  | objs, .addObject o :: l => o.Safe g ∧ Inside B g (objs ++ [o]) l
  | objs, .pose i p :: l => Inside B g (objs.modify i (fun o => o.pose p)) l
  | objs, .updateMaterialGrid :: l => (∀ o ∈ objs, o.Safe g) ∧ Inside B g objs l
  | objs, .addSource x :: l => Fits g x ∧ Inside B g objs l
  | objs, .addMonitor m :: l => MonitorInside B g m ∧ Inside B g objs l
  | objs, .addTimeMonitor m :: l => TMonInside g m ∧ Inside B g objs l
  | objs, .setTfsf vol _ :: l => TfsfFits g vol ∧ Inside B g objs l
  | objs, _ :: l => Inside B g objs l

/-! ## Attached monitors are ready -/

theorem dims_field {g : Grid ℝ} {f : Flds ℝ} (h : f.Dims g.Nx g.Ny) : FieldDims g f := ⟨h.Ez, h.Hx, h.Hy⟩

theorem surfPoint_reads (g : Grid ℝ) (hg : 0 < g.dx) (a b : V2 ℝ) (sg : Sgn) (s : Surf ℝ) (hs : Surf.make a b sg = .ok s)
    (hne : g.toGrid a ≠ g.toGrid b) (ha : InnerNode g (g.toGrid a)) (hb : InnerNode g (g.toGrid b)) (is : ISurf) (hi : g.toGridS s = .ok is)
    (f : Flds ℝ) (hf : FieldDims g f) (i : ℤ) (h0 : 0 ≤ i) (h1 : i < cells g a b) :
    Reads g f .Ez (surfPoint g s is i) ∧ Reads g f .Hx (surfPoint g s is i) ∧ Reads g f .Hy (surfPoint g s is i) := by
  obtain ⟨u, u0, u1, ex, ey⟩ := surfPoint_mid g hg a b sg s hs hne is hi i h0 h1
  obtain ⟨bx1, bx2⟩ := between_node u0 u1 (rfl : ((g.toGrid a).x : ℝ) = _) (rfl : ((g.toGrid b).x : ℝ) = _) ha.1 hb.1 ha.2.2.1 hb.2.2.1
  obtain ⟨by1, by2⟩ := between_node u0 u1 (rfl : ((g.toGrid a).y : ℝ) = _) (rfl : ((g.toGrid b).y : ℝ) = _) ha.2.1 hb.2.1 ha.2.2.2 hb.2.2.2
  exact reads_inner g hg f hf _ (by rw [ex]; exact bx1) (by rw [ey]; exact by1) (by rw [ex]; exact bx2) (by rw [ey]; exact by2)

theorem layout_addAll {P : Type} (freq : List ℝ) (pos : List P) {names : List String} (h : names ∈ ([["Ez"], ["Hx"], ["Hy"], ["Ez", "Hx", "Hy"],
    ["Ez", "Hy"], ["Ez", "Hx"], ["Ez", "Hp", "Hr"], ["Ez", "Hp"], []] : List (List String))) :
    ((Dft.make freq : Dft ℝ P).addAll pos names).layout = names.map fun n => (n, pos) := by
  unfold Dft.layout
  rw [(addAll_acc freq pos names h).1, List.map_map]
  rfl

theorem surf_attached (g : Grid ℝ) (hg : 0 < g.dx) (name : String) (a b : V2 ℝ) (sg : Sgn) (s : Surf ℝ) (tag : DftTag) (freq : List ℝ)
    (hs : Surf.make a b sg = .ok s) (hne : g.toGrid a ≠ g.toGrid b) (ha : InnerNode g (g.toGrid a)) (hb : InnerNode g (g.toGrid b)) :
    ∃ m, (SurfMon.make name s tag freq).setF g = .ok m ∧ m.Ready g := by
  obtain ⟨is, hi, k2, -, -⟩ := toGridS_make g a b sg s hs hne
  have hn : is.dim.inorm = (cells g a b : ℤ) := by rw [k2]; simp only [cells]; push_cast; rfl
  refine ⟨_, surf_setF g name s tag freq is hi _ hn, ⟨is, hi, fun f hf i h0 h1 => ?_⟩, ?_⟩
  · exact surfPoint_reads g hg a b sg s hs hne ha hb is hi f (dims_field hf) i h0 h1
  · intro e he
    simp only at he
    rw [layout_addAll freq _ (surfKeys_mem tag is), List.mem_map] at he
    obtain ⟨n, hn', rfl⟩ := he
    refine ⟨?_, fun p hp => by rw [mem_intRange] at hp; exact hp⟩
    cases tag
    case tangent => by_cases h : is.dim.x = 0 <;> simp [surfKeys, h] at hn' <;> tauto
    all_goals simp [surfKeys] at hn'; tauto

theorem cyl_position (surf : CylSurf ℝ) (n k : ℕ) : surf.position (cylTheta n k) =
    ⟨surf.center.x + surf.radius * Real.cos (arcAngle n k), surf.center.y + surf.radius * Real.sin (arcAngle n k)⟩ := by
  have h : cylTheta (K := ℝ) n k = arcAngle n k := by
    unfold cylTheta arcAngle
    simp
  rw [h]
  ext <;> simp [CylSurf.position, CylSurf.normal] <;> ring

theorem mem_pos2 {n m : ℤ} {q : ℤ × ℤ} : q ∈ pos2 n m ↔ (0 ≤ q.1 ∧ q.1 < n) ∧ 0 ≤ q.2 ∧ q.2 < m := by
  obtain ⟨i, j⟩ := q
  simp only [pos2, List.mem_flatMap, List.mem_map, mem_intRange, Prod.mk.injEq]
  constructor
  · rintro ⟨x, hx, y, hy, rfl, rfl⟩; exact ⟨hx, hy⟩
  · rintro ⟨h1, h2⟩; exact ⟨i, h1, j, h2, rfl, rfl⟩

theorem volKeys_mem (tag : DftTag) : volKeys tag ∈ ([["Ez"], ["Hx"], ["Hy"], ["Ez", "Hx", "Hy"],
    ["Ez", "Hy"], ["Ez", "Hx"], ["Ez", "Hp", "Hr"], ["Ez", "Hp"], []] : List (List String)) := by
  cases tag <;> simp [volKeys]

theorem attached {B : Prop} (g : Grid ℝ) (hg : 0 < g.dx) {m : Monitor ℝ} (h : MonitorInside B g m) : ∃ m', m.setF g = .ok m' ∧ m'.Ready B g := by
  cases h with
  | point hB name p tag freq h =>
    refine ⟨_, rfl, hB, fun e he => ?_⟩
    change e ∈ ((Dft.make freq : Dft ℝ Unit).addAll _ (volKeys tag)).layout at he
    rw [layout_addAll freq _ (volKeys_mem tag), List.mem_map] at he
    obtain ⟨n, hn', rfl⟩ := he
    cases tag <;> simp [volKeys] at hn' <;> tauto
  | surf name a b sg s tag freq hs hne ha hb =>
    obtain ⟨m', e, r⟩ := surf_attached g hg name a b sg s tag freq hs hne ha hb
    exact ⟨.surf m', by unfold Monitor.setF; simp only [e]; rfl, r⟩
  | box name a b tag freq m hm hx hy ha hb =>
    have hgf : ∀ f, g.toGrid (boxFace a b f).1 ≠ g.toGrid (boxFace a b f).2.1 := by
      intro f e
      have e1 := congrArg V2.x e
      have e2 := congrArg V2.y e
      simp only [Grid.toGrid, roundI_real] at hx hy e1 e2
      fin_cases f <;> simp [boxFace] at e1 e2 <;> omega
    have h1 : ∀ f, InnerNode g (g.toGrid (boxFace a b f).1) := by
      intro f
      obtain ⟨a1, a2, a3, a4⟩ := ha
      obtain ⟨b1, b2, b3, b4⟩ := hb
      fin_cases f <;> refine ⟨?_, ?_, ?_, ?_⟩ <;> assumption
    have h2 : ∀ f, InnerNode g (g.toGrid (boxFace a b f).2.1) := by
      intro f
      obtain ⟨a1, a2, a3, a4⟩ := ha
      obtain ⟨b1, b2, b3, b4⟩ := hb
      fin_cases f <;> refine ⟨?_, ?_, ?_, ?_⟩ <;> assumption
    choose s hs using boxFace_make a b
    have e0 : (Vol.make a b).getSurface .y_bottom = .ok (s 0) := hs 0
    have e1 : (Vol.make a b).getSurface .x_top = .ok (s 1) := hs 1
    have e2 : (Vol.make a b).getSurface .y_top = .ok (s 2) := hs 2
    have e3 : (Vol.make a b).getSurface .x_bottom = .ok (s 3) := hs 3
    unfold BoxMon.make at hm
    simp only [e0, e1, e2, e3, Except.ok_bind] at hm
    have hm := Except.ok.inj hm
    obtain ⟨l, el, rl⟩ := mapM'_ready (step := SurfMon.setF g) (Q := SurfMon.Ready g) m.faces (by
      intro x hx
      rw [← hm] at hx
      simp only [List.mem_cons, List.not_mem_nil, or_false] at hx
      rcases hx with rfl | rfl | rfl | rfl
      · exact surf_attached g hg _ _ _ _ _ _ _ (hs 0) (hgf 0) (h1 0) (h2 0)
      · exact surf_attached g hg _ _ _ _ _ _ _ (hs 1) (hgf 1) (h1 1) (h2 1)
      · exact surf_attached g hg _ _ _ _ _ _ _ (hs 2) (hgf 2) (h1 2) (h2 2)
      · exact surf_attached g hg _ _ _ _ _ _ _ (hs 3) (hgf 3) (h1 3) (h2 3))
    exact ⟨.box { m with faces := l }, by unfold Monitor.setF BoxMon.setF; simp only [el]; rfl, rl⟩
  | vol name a b tag freq ha hb hx hy =>
    refine ⟨_, rfl, ⟨fun e he => ?_⟩⟩
    change e ∈ ((Dft.make freq : Dft ℝ (ℤ × ℤ)).addAll _ (volKeys tag)).layout at he
    rw [layout_addAll freq _ (volKeys_mem tag), List.mem_map] at he
    obtain ⟨n, hn', rfl⟩ := he
    refine ⟨?_, fun q hq => ?_⟩
    · cases tag <;> simp [volKeys] at hn' <;> tauto
    · rw [mem_pos2] at hq
      obtain ⟨⟨q1, q2⟩, q3, q4⟩ := hq
      obtain ⟨a1, a2, a3, a4⟩ := ha
      obtain ⟨b1, b2, b3, b4⟩ := hb
      have dx : (g.toGridV (VolMon.make name (Vol.make a b) tag freq).vol).dim.x = (g.toGrid b).x - (g.toGrid a).x := by
        show |(g.toGrid a).x - (g.toGrid b).x| = _
        rw [abs_of_nonpos (by omega)]; omega
      have dy : (g.toGridV (VolMon.make name (Vol.make a b) tag freq).vol).dim.y = (g.toGrid b).y - (g.toGrid a).y := by
        show |(g.toGrid a).y - (g.toGrid b).y| = _
        rw [abs_of_nonpos (by omega)]; omega
      rw [dx] at q2
      rw [dy] at q4
      show 0 ≤ (g.toGrid a).x + q.1 ∧ (g.toGrid a).x + q.1 < g.Nx ∧ 0 ≤ (g.toGrid a).y + q.2 ∧ (g.toGrid a).y + q.2 < g.Ny
      omega
  | cyl name surf tag freq hr h1 h2 h3 h4 =>
    refine ⟨_, rfl, CylMon.Ready.mk (fun f hf i h0 hi => ?_) fun e he => ?_⟩
    · obtain ⟨k, hk⟩ := Int.eq_ofNat_of_zero_le h0
      obtain ⟨n, hn⟩ := Int.eq_ofNat_of_zero_le (a := ceilI (ofInt 2 * Scalar.pi * surf.radius / g.dx))
        (h0.trans (le_of_lt hi))
      obtain ⟨r, -, hr2⟩ := C14_cylinder_monitor g hg f (dims_field hf) surf hr h1 h2 h3 h4 n 0
      obtain ⟨c1, c2, c3⟩ := hr2 k (by
        have : i < ceilI (ofInt 2 * Scalar.pi * surf.radius / g.dx) := hi
        omega)
      have e : ((CylMon.make name surf tag freq).setF g).surf.position (cylTheta ((CylMon.make name surf tag freq).setF g).length i) =
          ⟨surf.center.x + surf.radius * Real.cos (arcAngle n k), surf.center.y + surf.radius * Real.sin (arcAngle n k)⟩ := by
        show surf.position (cylTheta (ceilI (ofInt 2 * Scalar.pi * surf.radius / g.dx)) i) = _
        rw [hn, hk]
        exact cyl_position surf n k
      rw [e]
      exact ⟨⟨_, c1⟩, ⟨_, c2⟩, _, c3⟩
    · change e ∈ ((Dft.make freq : Dft ℝ ℤ).addAll _ (cylKeys tag)).layout at he
      rw [layout_addAll freq _ (cylKeys_mem tag), List.mem_map] at he
      obtain ⟨n, hn', rfl⟩ := he
      refine ⟨?_, fun p hp => by rw [mem_intRange] at hp; exact hp⟩
      cases tag <;> simp [cylKeys] at hn' <;> tauto

theorem collect_ok {α : Type} {read : α → M ℝ} : ∀ (l : List α), (∀ a ∈ l, ∃ v, read a = .ok v) → ∃ vs, collect read l = .ok vs
  | [], _ => ⟨[], rfl⟩
  | a :: l, h => by
    obtain ⟨v, hv⟩ := h a (by simp)
    obtain ⟨vs, hvs⟩ := collect_ok l (fun b hb => h b (by simp [hb]))
    exact ⟨v :: vs, by unfold collect; rw [hv, Except.ok_bind, hvs]; rfl⟩

/-- The nodes of a surface lie between its rounded end points. -/
theorem surface_nodes (g : Grid ℝ) (a b : V2 ℝ) (sg : Sgn) (s : Surf ℝ) (hs : Surf.make a b sg = .ok s) (hne : g.toGrid a ≠ g.toGrid b)
    (ha : InGrid g (g.toGrid a)) (hb : InGrid g (g.toGrid b)) (is : ISurf) (hi : g.toGridS s = .ok is) (i : ℤ) (h0 : 0 ≤ i)
    (h1 : i < is.dim.inorm) : InGrid g (is.a + V2.smul i is.tangent) := by
  obtain ⟨e1, e2, e3, -, e5, -, -⟩ := surf_make a b sg s hs
  have hor : ((g.toGrid a).x = (g.toGrid b).x ∧ (g.toGrid a).y ≠ (g.toGrid b).y) ∨
      ((g.toGrid a).x ≠ (g.toGrid b).x ∧ (g.toGrid a).y = (g.toGrid b).y) := by
    have hax : (g.toGrid a).x = (g.toGrid b).x ∨ (g.toGrid a).y = (g.toGrid b).y := by
      rcases e5 with h | h
      · left; simp [Grid.toGrid, h]
      · right; simp [Grid.toGrid, h]
    have : ¬ ((g.toGrid a).x = (g.toGrid b).x ∧ (g.toGrid a).y = (g.toGrid b).y) := by
      rintro ⟨u, v⟩; exact hne (V2.ext u v)
    tauto
  obtain ⟨is', k1, k2, -, -, k5, k6, k7, k8⟩ := (C05_isurface_outcome (g.toGrid a) (g.toGrid b) sg).2.2 hor
  have : is' = is := by
    unfold Grid.toGridS at hi
    rw [e1, e2, e3, k1] at hi
    exact Except.ok.inj hi
  subst this
  have kx := congrArg V2.x k7
  have ky := congrArg V2.y k7
  simp only at kx ky
  obtain ⟨a1, a2, a3, a4⟩ := ha
  obtain ⟨b1, b2, b3, b4⟩ := hb
  have tcase : (is'.tangent.x = 0 ∨ is'.tangent.x = 1 ∨ is'.tangent.x = -1) ∧ (is'.tangent.y = 0 ∨ is'.tangent.y = 1 ∨ is'.tangent.y = -1) := by
    have := abs_nonneg is'.tangent.x
    have := abs_nonneg is'.tangent.y
    constructor
    · rcases abs_cases is'.tangent.x with ⟨h, -⟩ | ⟨h, -⟩ <;> omega
    · rcases abs_cases is'.tangent.y with ⟨h, -⟩ | ⟨h, -⟩ <;> omega
  show 0 ≤ is'.a.x + i * is'.tangent.x ∧ is'.a.x + i * is'.tangent.x < g.Nx ∧ 0 ≤ is'.a.y + i * is'.tangent.y ∧ is'.a.y + i * is'.tangent.y < g.Ny
  rw [k2]
  obtain ⟨tx, ty⟩ := tcase
  generalize is'.dim.inorm = L at *
  refine ⟨?_, ?_, ?_, ?_⟩
  · rcases tx with h | h | h <;> rw [h] at kx ⊢ <;> omega
  · rcases tx with h | h | h <;> rw [h] at kx ⊢ <;> omega
  · rcases ty with h | h | h <;> rw [h] at ky ⊢ <;> omega
  · rcases ty with h | h | h <;> rw [h] at ky ⊢ <;> omega

theorem shape_ok (g : Grid ℝ) {s : TShape ℝ} (h : ShapeInside g s) {t : Tensor ℝ} (ht : t.Dim g.Nx g.Ny) : ∃ r, s.snapshot g t = .ok r := by
  cases h with
  | point p h =>
    obtain ⟨h1, h2, h3, h4⟩ := h
    obtain ⟨v, hv⟩ := Tensor.rd_in' ht h1 h2 h3 h4
    unfold TShape.snapshot
    simp only [hv, Except.ok_bind]
    exact ⟨_, rfl⟩
  | surface a b sg s hs hne ha hb =>
    obtain ⟨is, hi, -, -, -⟩ := toGridS_make g a b sg s hs hne
    obtain ⟨vs, hvs⟩ := collect_ok (read := fun i => t.rd (is.a + V2.smul i is.tangent).x (is.a + V2.smul i is.tangent).y) (intRange 0 is.dim.inorm) (by
      intro i him
      rw [mem_intRange] at him
      obtain ⟨h1, h2, h3, h4⟩ := surface_nodes g a b sg s hs hne ha hb is hi i him.1 him.2
      exact Tensor.rd_in' ht h1 h2 h3 h4)
    unfold TShape.snapshot
    simp only [hi, hvs, Except.ok_bind]
    exact ⟨_, rfl⟩
  | volume a b ha hb hx hy =>
    have dx : (g.toGridV (Vol.make a b)).dim.x = (g.toGrid b).x - (g.toGrid a).x := by
      show |(g.toGrid a).x - (g.toGrid b).x| = _
      rw [abs_of_nonpos (by omega)]; omega
    have dy : (g.toGridV (Vol.make a b)).dim.y = (g.toGrid b).y - (g.toGrid a).y := by
      show |(g.toGrid a).y - (g.toGrid b).y| = _
      rw [abs_of_nonpos (by omega)]; omega
    obtain ⟨vs, hvs⟩ := collect_ok (read := fun q : ℤ × ℤ => t.rd ((g.toGridV (Vol.make a b)).a + ⟨q.1, q.2⟩ : V2 ℤ).x ((g.toGridV (Vol.make a b)).a + ⟨q.1, q.2⟩ : V2 ℤ).y)
      (pos2 ((g.toGridV (Vol.make a b)).dim.x + 1) ((g.toGridV (Vol.make a b)).dim.y + 1)) (by
      intro q hq
      rw [mem_pos2, dx, dy] at hq
      obtain ⟨⟨q1, q2⟩, q3, q4⟩ := hq
      obtain ⟨a1, a2, a3, a4⟩ := ha
      obtain ⟨b1, b2, b3, b4⟩ := hb
      have i1 : 0 ≤ (g.toGrid a).x + q.1 := by omega
      have i2 : (g.toGrid a).x + q.1 < g.Nx := by omega
      have i3 : 0 ≤ (g.toGrid a).y + q.2 := by omega
      have i4 : (g.toGrid a).y + q.2 < g.Ny := by omega
      exact Tensor.rd_in' ht i1 i2 i3 i4)
    unfold TShape.snapshot
    simp only [hvs, Except.ok_bind]
    exact ⟨_, rfl⟩

theorem shape_ready (g : Grid ℝ) {s : TShape ℝ} (h : ShapeInside g s) : s.Ready g := by
  intro t ht
  obtain ⟨r, e⟩ := shape_ok g h ht
  rw [e]
  exact NoUB.ok _

theorem every_ready {r : ℕ} (h1 : r < 2 ^ 32) (h2 : r ≠ 2 ^ 31) : (Every.make r).Ready := by
  unfold Every.Ready Every.make toInt32
  by_cases h0 : r = 0
  · left; simp [h0]
  · right
    simp only
    split <;> refine ⟨?_, ?_, ?_, ?_⟩ <;> omega

/-! ## The theorem -/

theorem Object.pose_mat (o : Object ℝ) (p : PoseOp ℝ) : (o.pose p).mat = o.mat := by cases p <;> rfl

theorem _root_.Qbox.Sim.Safe.setMonitor {B : Prop} {g : Grid ℝ} {objs : List (Object ℝ)} {s : Sim ℝ} (h : s.Safe B g objs) {i : ℕ} {m : Monitor ℝ}
    (hm : m.Ready B g) : ({ s with mons := s.mons.set i m } : Sim ℝ).Safe B g objs := by
  refine ⟨h.wf, h.grid, h.objs, h.pols, h.srcs, fun k hk => ?_, h.tmons⟩
  rcases List.mem_or_eq_of_mem_set hk with hk | rfl
  · exact h.mons k hk
  · exact hm

theorem step_safe (now : ℕ → ℝ) {B : Prop} {g : Grid ℝ} (hg : g.Wide) (hd : 0 < g.dx) (objs : List (Object ℝ)) (op : Op ℝ) (l : List (Op ℝ))
    (hi : Inside B g objs (op :: l)) {s : Sim ℝ} (h : s.Safe B g objs) (hm : ∀ i o m, op = .subtract i o → s.mons[i]? = some m → NoUB (m.sub o)) :
    (s.step now op).Good B fun s' => ∃ objs', Inside B g objs' l ∧ s'.Safe B g objs' := by
  have lift : ∀ {r : Res (Sim ℝ)}, Inside B g objs l → r.Good B (Sim.Safe B g objs) → r.Good B fun s' => ∃ objs', Inside B g objs' l ∧ s'.Safe B g objs' :=
    fun hl hr => hr.imp fun s' hs' => ⟨objs, hl, hs'⟩
  cases op with
  | update => exact lift hi (h.update now hg)
  | addObject o =>
    obtain ⟨ho, hl⟩ := hi
    obtain ⟨c, e1, w1, g1, -⟩ := Core.insertObject_ok h.wf (o := o) (by rw [h.grid]; exact ho)
    obtain ⟨p1, p2⟩ := Core.insertObject_hasPol e1
    have q : ∀ mats : List String, ({ s with mats := mats, core := c, objs := s.objs ++ [o] } : Sim ℝ).Safe B g (objs ++ [o]) := fun mats =>
      ⟨w1, g1.trans h.grid, by show s.objs ++ [o] = _; rw [h.objs], by
        intro x hx
        rcases List.mem_append.mp hx with hx | hx
        · exact p2 x (h.pols x hx)
        · rw [List.mem_singleton.mp hx]; exact p1, h.srcs, h.mons, h.tmons⟩
    unfold Sim.step
    by_cases hm : o.mat.name ∈ s.mats
    · simp only [if_pos hm]
      exact tryM_good_ok e1 ⟨_, hl, q _⟩
    · simp only [if_neg hm]
      exact tryM_good_ok e1 ⟨_, hl, q _⟩
  | addSource x =>
    obtain ⟨hx, hl⟩ := hi
    refine ⟨objs, hl, h.wf, h.grid, h.objs, h.pols, ?_, h.mons, h.tmons⟩
    intro y hy
    rcases List.mem_append.mp hy with hy | hy
    · exact h.srcs y hy
    · rw [List.mem_singleton.mp hy]; exact hx
  | addMonitor m =>
    obtain ⟨hin, hl⟩ := hi
    obtain ⟨m', e, r⟩ := attached g hd hin
    unfold Sim.step
    rw [h.grid]
    refine tryM_good_ok e ⟨objs, hl, h.wf, h.grid, h.objs, h.pols, h.srcs, ?_, h.tmons⟩
    intro k hk
    rcases List.mem_append.mp hk with hk | hk
    · exact h.mons k hk
    · rw [List.mem_singleton.mp hk]; exact r
  | addTimeMonitor m =>
    obtain ⟨⟨hin, r, r1, r2, r3⟩, hl⟩ := hi
    unfold Sim.step
    refine tryM_good (TMon.setF_noUB _ _) ⟨objs, hl, h⟩ fun F _ => ⟨objs, hl, h.wf, h.grid, h.objs, h.pols, h.srcs, h.mons, ?_⟩
    intro k hk
    rcases List.mem_append.mp hk with hk | hk
    · exact h.tmons k hk
    · rw [List.mem_singleton.mp hk]; exact ⟨shape_ready g hin, by rw [r3]; exact every_ready r1 r2⟩
  | clearFields =>
    obtain ⟨w, p⟩ := Core.clearFields_ok h.wf
    exact ⟨objs, hi, w, h.grid, h.objs, fun o ho => p o (h.pols o ho), h.srcs, h.mons, h.tmons⟩
  | clearMaterials =>
    have e := clearMaterials_closed (g := s.core.g) h.wf.f
    unfold Sim.step
    refine tryM_good_ok e ⟨objs, hi, { h.wf with f := Flds.paint_dims h.wf.f _ _ _ _ }, h.grid, h.objs, h.pols, h.srcs, h.mons, h.tmons⟩
  | updateMaterialGrid =>
    obtain ⟨ho, hl⟩ := hi
    obtain ⟨c, e, w, g1, -, -, -, p⟩ := Core.updateMaterialGrid_ok h.wf s.objs (by rw [h.grid, h.objs]; exact ho) h.pols
    unfold Sim.step
    exact tryM_good_ok e ⟨objs, hl, w, g1.trans h.grid, h.objs, fun o ho => p o (h.pols o ho), h.srcs, h.mons, h.tmons⟩
  | removeMonitors => exact ⟨objs, hi, h.wf, h.grid, h.objs, h.pols, h.srcs, by simp, h.tmons⟩
  | setTfsf vol tp =>
    obtain ⟨hv, hl⟩ := hi
    exact ⟨objs, hl, Core.setTfsf_ok h.wf (by rw [h.grid]; exact hv) tp, h.grid, h.objs, h.pols, h.srcs, h.mons, h.tmons⟩
  | writeField C => exact lift hi (h.writeField now C)
  | writeE => exact lift hi (h.writeField now .Ez)
  | writeH => exact lift hi ((h.writeField now .Hx).andThen fun s1 h1 => h1.writeField now .Hy)
  | writeMonitor =>
    refine lift hi ?_
    have q : ∀ ck : Clocks, ({ s with clocks := ck } : Sim ℝ).Safe B g objs := fun ck => ⟨h.wf, h.grid, h.objs, h.pols, h.srcs, h.mons, h.tmons⟩
    unfold Sim.step
    refine tryM_good (Clocks.begin_noUB _ _ _) h fun ck _ => ?_
    refine tryM_good (Clocks.stop_noUB _ _ _) (q _) fun ck2 _ => ?_
    exact q _
  | pose i p =>
    refine ⟨objs.modify i (fun o => o.pose p), hi, h.wf, h.grid, by show s.objs.modify _ _ = _; rw [h.objs], ?_, h.srcs, h.mons, h.tmons⟩
    intro o ho
    change o ∈ s.objs.modify i (fun o => o.pose p) at ho
    obtain ⟨k, hk, hke⟩ := List.mem_iff_getElem.mp ho
    rw [List.getElem_modify] at hke
    rw [List.length_modify] at hk
    have hm := h.pols _ (List.getElem_mem hk)
    split at hke
    · subst hke
      unfold Core.HasPol at hm ⊢
      rw [Object.pose_mat]
      exact hm
    · subst hke; exact hm
  | writeTimeMonitor i =>
    refine lift hi ?_
    unfold Sim.step
    cases hti : s.tmons[i]? with
    | none => simp only [hti]; exact h
    | some m =>
      simp only [hti]
      obtain ⟨n1, n2⟩ := TMon.write_safe (g := s.core.g) h.wf.f (m := m) (by rw [h.grid]; exact h.tmons m (List.mem_of_getElem? hti)) s.file
      have st : ∀ (k : TMon ℝ) (F : File ℝ), k.Ready s.core.g → ({ s with tmons := s.tmons.set i k, file := F } : Sim ℝ).Safe B g objs := by
        refine fun k F hk => ⟨h.wf, h.grid, h.objs, h.pols, h.srcs, h.mons, fun x hx => ?_⟩
        rcases List.mem_or_eq_of_mem_set hx with hx | rfl
        · exact h.tmons x hx
        · rw [← h.grid]; exact hk
      exact tryM_good n1 (st _ _ (TMon.writeLeft_ready h.wf.f (by rw [h.grid]; exact h.tmons m (List.mem_of_getElem? hti)) _)) fun q hq => st _ _ (n2 _ _ hq)
  | subtract i o =>
    refine lift hi ?_
    unfold Sim.step
    cases hti : s.mons[i]? with
    | none => simp only [hti]; exact h
    | some m =>
      simp only [hti]
      exact tryM_good (hm i o m rfl hti) (h.setMonitor ((h.mons m (List.mem_of_getElem? hti)).subLeft)) fun m' hm' =>
        h.setMonitor ((h.mons m (List.mem_of_getElem? hti)).sub hm')

/-- A call that ends, normally or with an exception, leaves a state from which the rest of the history stays inside. -/
theorem step_keeps (now : ℕ → ℝ) {B : Prop} {g : Grid ℝ} (hg : g.Wide) (hd : 0 < g.dx) (objs : List (Object ℝ)) (op : Op ℝ) (l : List (Op ℝ))
    (hi : Inside B g objs (op :: l)) {s : Sim ℝ} (h : s.Safe B g objs) : (s.step now op).All fun s' => ∃ objs', Inside B g objs' l ∧ s'.Safe B g objs' := by
  by_cases hs : ∃ i o, op = .subtract i o
  · obtain ⟨i, o, rfl⟩ := hs
    unfold Sim.step
    cases hti : s.mons[i]? with
    | none => simp only [hti]; exact ⟨objs, hi, h⟩
    | some m =>
      simp only [hti]
      exact tryM_all ⟨objs, hi, h.setMonitor ((h.mons m (List.mem_of_getElem? hti)).subLeft)⟩ fun m' hm' =>
        ⟨objs, hi, h.setMonitor ((h.mons m (List.mem_of_getElem? hti)).sub hm')⟩
  · have := step_safe now hg hd objs op l hi h fun i o m e _ => absurd ⟨i, o, e⟩ hs
    cases e : s.step now op with
    | ok s' => rw [e] at this; exact this
    | threw m s' => rw [e] at this; exact this
    | ub u => trivial

theorem run_safe (now : ℕ → ℝ) {B : Prop} {g : Grid ℝ} (hg : g.Wide) (hd : 0 < g.dx) : ∀ (ops : List (Op ℝ)) (objs : List (Object ℝ))
    (ms : List (Monitor ℝ)) (s : Sim ℝ), Inside B g objs ops → Matched g ms ops → s.Safe B g objs → s.Kept ms →
    (∃ s' objs', s.run now ops = .ok s' ∧ s'.Safe B g objs') ∨ (B ∧ s.run now ops = .error (.ub .dangling))
  | [], objs, _, s, _, _, h, _ => .inl ⟨s, objs, rfl, h⟩
  | op :: l, objs, ms, s, hi, hm, h, hk => by
    have := step_safe now hg hd objs op l hi h (by rintro i o m rfl hi'; exact hk.sub_noUB hm hi')
    have hk' := hk.step now op l hm h.grid
    unfold Sim.run
    cases e : s.step now op with
    | ok s1 =>
      rw [e] at this hk'
      obtain ⟨o1, i1, h1⟩ := this
      obtain ⟨m1, j1, k1⟩ := hk'
      exact run_safe now hg hd l o1 m1 s1 i1 j1 h1 k1
    | threw m s1 =>
      rw [e] at this hk'
      obtain ⟨o1, i1, h1⟩ := this
      obtain ⟨m1, j1, k1⟩ := hk'
      exact run_safe now hg hd l o1 m1 s1 i1 j1 h1 k1
    | ub u =>
      rw [e] at this
      obtain ⟨hb, rfl⟩ := this
      exact .inr ⟨hb, rfl⟩

theorem make_safe (now : ℕ → ℝ) (B : Prop) (g : Grid ℝ) (hg : g.Wide) (fn : String) (hf : fn ≠ "") : ∃ s0, Sim.make now g fn = .ok s0 ∧ s0.Safe B g [] := by
  obtain ⟨s0, h0, w, g0, -, -, -, -, a1, a2, a3, a4, hs⟩ := make_named now (g := g) (by have := hg.nx; omega) (by have := hg.ny; omega) hf
  exact ⟨s0, h0, w, g0, a4, by rw [a4]; simp, by rw [a1]; simp, by rw [a2]; simp, by rw [a3]; simp⟩

theorem make_kept {now : ℕ → ℝ} {g : Grid ℝ} {fn : String} {s0 : Sim ℝ} (h : Sim.make now g fn = .ok s0) : s0.Kept [] := by
  unfold Sim.make at h
  obtain ⟨ck, -, h⟩ := (Except.bind_ok ..).mp h
  obtain ⟨c, -, h⟩ := (Except.bind_ok ..).mp h
  split_ifs at h
  have := Except.ok.inj h
  subst this
  exact .nil

/-- **C14.** On a grid at least two nodes wider than the absorbing layer, a simulation can be constructed, and no history of calls that stays inside the
domain, and subtracts monitors only from monitors of the same shape, accesses an array out of bounds, whatever calls come in whatever order and
whichever of them throw. The only undefined behaviour left is the dangling reference that updating a point monitor uses. -/
theorem C14_histories (now : ℕ → ℝ) (g : Grid ℝ) (hg : g.Wide) (hd : 0 < g.dx) (fn : String) (hf : fn ≠ "") (ops : List (Op ℝ)) (hi : Inside True g [] ops)
    (hm : Matched g [] ops) : ∃ s0, Sim.make now g fn = .ok s0 ∧ ((∃ s, s0.run now ops = .ok s) ∨ s0.run now ops = .error (.ub .dangling)) := by
  obtain ⟨s0, h0, h⟩ := make_safe now True g hg fn hf
  refine ⟨s0, h0, ?_⟩
  rcases run_safe now hg hd ops [] [] s0 hi hm h (make_kept h0) with ⟨s, _, e, -⟩ | ⟨-, e⟩
  · exact .inl ⟨s, e⟩
  · exact .inr e

/-- **C14.** Without point monitors no undefined behaviour is left. -/
theorem C14_no_undefined_behaviour (now : ℕ → ℝ) (g : Grid ℝ) (hg : g.Wide) (hd : 0 < g.dx) (fn : String) (hf : fn ≠ "") (ops : List (Op ℝ))
    (hi : Inside False g [] ops) (hm : Matched g [] ops) : ∃ s0 s, Sim.make now g fn = .ok s0 ∧ s0.run now ops = .ok s := by
  obtain ⟨s0, h0, h⟩ := make_safe now False g hg fn hf
  rcases run_safe now hg hd ops [] [] s0 hi hm h (make_kept h0) with ⟨s, _, e, -⟩ | ⟨h, -⟩
  · exact ⟨s0, s, h0, e⟩
  · exact h.elim

/-! ## C23 for histories that stay inside -/

theorem inside_aligned {B : Prop} {g : Grid ℝ} {m : Monitor ℝ} (h : MonitorInside B g m) : m.Aligned := by
  cases h with
  | point => trivial
  | surf name a b sg s tag freq hs => exact make_aligned hs
  | box name a b tag freq m hm =>
    choose s hs using boxFace_make a b
    have e0 : (Vol.make a b).getSurface .y_bottom = .ok (s 0) := hs 0
    have e1 : (Vol.make a b).getSurface .x_top = .ok (s 1) := hs 1
    have e2 : (Vol.make a b).getSurface .y_top = .ok (s 2) := hs 2
    have e3 : (Vol.make a b).getSurface .x_bottom = .ok (s 3) := hs 3
    unfold BoxMon.make at hm
    simp only [e0, e1, e2, e3, Except.ok_bind] at hm
    have hm := Except.ok.inj hm
    intro x hx
    rw [← hm] at hx
    simp only [List.mem_cons, List.not_mem_nil, or_false] at hx
    rcases hx with rfl | rfl | rfl | rfl
    · exact make_aligned (hs 0)
    · exact make_aligned (hs 1)
    · exact make_aligned (hs 2)
    · exact make_aligned (hs 3)
  | vol => trivial
  | cyl => trivial

theorem inside_physical {B : Prop} {g : Grid ℝ} : ∀ (ops : List (Op ℝ)) (objs : List (Object ℝ)), Inside B g objs ops →
    Inside B g objs (physical ops) ∧ ∀ op ∈ ops, AddsAligned op
  | [], _, _ => ⟨trivial, by simp⟩
  | op :: l, objs, h => by
    have hcons : ∀ {objs'}, Inside B g objs' l → AddsAligned op → Inside B g objs' (physical l) ∧ ∀ o ∈ op :: l, AddsAligned o := fun h1 h2 => by
      obtain ⟨a, b⟩ := inside_physical l _ h1
      refine ⟨a, fun o ho => ?_⟩
      rcases List.mem_cons.mp ho with rfl | ho
      · exact h2
      · exact b o ho
    cases op with
    | addObject o => exact ⟨⟨h.1, (hcons h.2 trivial).1⟩, (hcons h.2 trivial).2⟩
    | pose i p => exact ⟨(hcons (objs' := objs.modify i (fun o => o.pose p)) h trivial).1, (hcons (objs' := objs.modify i (fun o => o.pose p)) h trivial).2⟩
    | updateMaterialGrid => exact ⟨⟨h.1, (hcons h.2 trivial).1⟩, (hcons h.2 trivial).2⟩
    | addSource x => exact ⟨⟨h.1, (hcons h.2 trivial).1⟩, (hcons h.2 trivial).2⟩
    | setTfsf vol tp => exact ⟨⟨h.1, (hcons h.2 trivial).1⟩, (hcons h.2 trivial).2⟩
    | addMonitor m => exact hcons h.2 (inside_aligned h.1)
    | addTimeMonitor m => exact hcons h.2 trivial
    | update => exact ⟨(hcons (objs' := objs) h trivial).1, (hcons (objs' := objs) h trivial).2⟩
    | clearFields => exact ⟨(hcons (objs' := objs) h trivial).1, (hcons (objs' := objs) h trivial).2⟩
    | clearMaterials => exact ⟨(hcons (objs' := objs) h trivial).1, (hcons (objs' := objs) h trivial).2⟩
    | removeMonitors => exact hcons (objs' := objs) h trivial
    | writeField C => exact hcons (objs' := objs) h trivial
    | writeE => exact hcons (objs' := objs) h trivial
    | writeH => exact hcons (objs' := objs) h trivial
    | writeMonitor => exact hcons (objs' := objs) h trivial
    | writeTimeMonitor i => exact hcons (objs' := objs) h trivial
    | subtract i o => exact hcons (objs' := objs) h trivial

theorem matched_physical (g : Grid ℝ) (ms : List (Monitor ℝ)) (ops : List (Op ℝ)) : Matched g ms (physical ops) := by
  induction ops with
  | nil => trivial
  | cons op l ih => cases op <;> exact ih

/-- **C23.** Every history that stays inside the domain runs, runs also when nobody looks, and the physical state is the same. -/
theorem C23_inside (now now' : ℕ → ℝ) (g : Grid ℝ) (hg : g.Wide) (hd : 0 < g.dx) (fn : String) (hf : fn ≠ "") (ops : List (Op ℝ))
    (hi : Inside False g [] ops) (hm : Matched g [] ops) : ∃ s0 s t0 t, Sim.make now g fn = .ok s0 ∧ s0.run now ops = .ok s ∧ Sim.make now' g fn = .ok t0 ∧
      t0.run now' (physical ops) = .ok t ∧ s.core = t.core ∧ s.srcs = t.srcs ∧ s.objs = t.objs := by
  obtain ⟨hp, ha⟩ := inside_physical ops [] hi
  obtain ⟨s0, s, h1, h2⟩ := C14_no_undefined_behaviour now g hg hd fn hf ops hi hm
  obtain ⟨t0, t, h3, h4⟩ := C14_no_undefined_behaviour now' g hg hd fn hf (physical ops) hp (matched_physical g [] ops)
  refine ⟨s0, s, t0, t, h1, h2, h3, h4, C23_observers now now' g fn fn s0 t0 s t ops (physical ops) h1 h3 ha
    (fun op hop => ha op (List.mem_of_mem_filter hop)) ?_ h2 h4⟩
  simp [physical, List.filter_filter]

/-! ## A history that stays inside -/

theorem gEx_node (i j : ℤ) : gEx.toGrid (⟨(i : ℝ), (j : ℝ)⟩ : V2 ℝ) = ⟨i, j⟩ := by
  simp [Grid.toGrid, gEx, Grid.make, roundAway_int]

/-- A source, a total-field region, a dispersive disc that is moved, monitors of all kinds, a time monitor, and calls that step, subtract, write and
clear. -/
noncomputable def tour (s : Surf ℝ) (box : BoxMon ℝ) (ref : SurfMon ℝ) : List (Op ℝ) :=
  [.addSource ⟨"a", .point .Ez ⟨(15 : ℤ), (10 : ℤ)⟩, .continuous 1⟩, .setTfsf ⟨⟨(5 : ℤ), (5 : ℤ)⟩, ⟨(15 : ℤ), (15 : ℤ)⟩, ⟨10, 10⟩⟩ (.continuous 1),
    .addObject (disc water 5 5), .addMonitor (.surf (.make "s" s .tangent [1])), .addMonitor (.box box),
    .addMonitor (.vol (.make "v" (Vol.make ⟨(2 : ℤ), (3 : ℤ)⟩ ⟨(7 : ℤ), (3 : ℤ)⟩) .all [1, 2])),
    .addMonitor (.cyl (.make "c" ⟨⟨10, 10⟩, 5⟩ .tangent [1])),
    .addTimeMonitor ⟨"t", .volume (Vol.make ⟨(2 : ℤ), (3 : ℤ)⟩ ⟨(7 : ℤ), (9 : ℤ)⟩), .E, .make 2, []⟩,
    .addTimeMonitor ⟨"t", .point ⟨(0 : ℤ), (19 : ℤ)⟩, .H, .make 0, []⟩, .update, .update, .pose 0 (.setPosition ⟨12, 12⟩), .updateMaterialGrid, .update,
    .subtract 0 (.surf ref), .writeE, .writeH, .writeTimeMonitor 0, .writeMonitor, .clearFields, .clearMaterials, .update]

theorem tour_inside : ∃ s box ref, Inside False gEx [] (tour s box ref) ∧ Matched gEx [] (tour s box ref) := by
  have n := gEx_node
  have i : ∀ i j : ℤ, 0 ≤ i → i < 20 → 0 ≤ j → j < 20 → InGrid gEx (gEx.toGrid ⟨(i : ℝ), (j : ℝ)⟩) := by
    intro i j h1 h2 h3 h4
    rw [n]
    exact ⟨h1, by rw [gEx_Nx]; exact h2, h3, by rw [gEx_Ny]; exact h4⟩
  have inn : ∀ i j : ℤ, 1 ≤ i → i < 20 → 1 ≤ j → j < 20 → InnerNode gEx (gEx.toGrid ⟨(i : ℝ), (j : ℝ)⟩) := by
    intro i j h1 h2 h3 h4
    rw [n]
    refine ⟨?_, ?_, ?_, ?_⟩
    · rw [gEx_dx]; exact_mod_cast h1
    · rw [gEx_dx]; exact_mod_cast h3
    · rw [gEx_Nx]; exact h2
    · rw [gEx_Ny]; exact h4
  obtain ⟨s, hs⟩ := boxFace_make (⟨((4 : ℤ) : ℝ), ((4 : ℤ) : ℝ)⟩ : V2 ℝ) ⟨((9 : ℤ) : ℝ), ((12 : ℤ) : ℝ)⟩ 0
  choose t ht using boxFace_make (⟨((3 : ℤ) : ℝ), ((2 : ℤ) : ℝ)⟩ : V2 ℝ) ⟨((16 : ℤ) : ℝ), ((17 : ℤ) : ℝ)⟩
  have e0 : (Vol.make (⟨((3 : ℤ) : ℝ), ((2 : ℤ) : ℝ)⟩ : V2 ℝ) ⟨((16 : ℤ) : ℝ), ((17 : ℤ) : ℝ)⟩).getSurface .y_bottom = .ok (t 0) := ht 0
  have e1 : (Vol.make (⟨((3 : ℤ) : ℝ), ((2 : ℤ) : ℝ)⟩ : V2 ℝ) ⟨((16 : ℤ) : ℝ), ((17 : ℤ) : ℝ)⟩).getSurface .x_top = .ok (t 1) := ht 1
  have e2 : (Vol.make (⟨((3 : ℤ) : ℝ), ((2 : ℤ) : ℝ)⟩ : V2 ℝ) ⟨((16 : ℤ) : ℝ), ((17 : ℤ) : ℝ)⟩).getSurface .y_top = .ok (t 2) := ht 2
  have e3 : (Vol.make (⟨((3 : ℤ) : ℝ), ((2 : ℤ) : ℝ)⟩ : V2 ℝ) ⟨((16 : ℤ) : ℝ), ((17 : ℤ) : ℝ)⟩).getSurface .x_bottom = .ok (t 3) := ht 3
  have hb : ∃ m, BoxMon.make "b" (Vol.make (⟨((3 : ℤ) : ℝ), ((2 : ℤ) : ℝ)⟩ : V2 ℝ) ⟨((16 : ℤ) : ℝ), ((17 : ℤ) : ℝ)⟩) .all [1] = .ok m := by
    unfold BoxMon.make
    simp only [e0, e1, e2, e3, Except.ok_bind]
    exact ⟨_, rfl⟩
  obtain ⟨box, hb⟩ := hb
  have hne : gEx.toGrid (⟨((4 : ℤ) : ℝ), ((4 : ℤ) : ℝ)⟩ : V2 ℝ) ≠ gEx.toGrid ⟨((9 : ℤ) : ℝ), ((4 : ℤ) : ℝ)⟩ := by
    rw [n, n]; intro h; exact absurd (congrArg V2.x h) (by norm_num)
  obtain ⟨is, hi, -⟩ := toGridS_make gEx _ _ _ s hs hne
  obtain ⟨ref, pos, hr, hl⟩ : ∃ r pos, (SurfMon.make "s" s .tangent [1]).setF gEx = .ok r ∧ r.fourier.layout = (surfKeys .tangent is).map fun n => (n, pos) :=
    ⟨_, _, surf_setF gEx "s" s .tangent [1] is hi _ rfl, layout_addAll _ _ (surfKeys_mem .tangent is)⟩
  refine ⟨s, box, ref, ⟨⟨by simp [Fields.IsComp], i 15 10 (by norm_num) (by norm_num) (by norm_num) (by norm_num)⟩, ?_, ?_, ?_, ?_, ?_, ?_, ?_, ?_, ?_, trivial⟩, ?_⟩
  · constructor <;> simp only [n, gEx_Nx, gEx_Ny] <;> norm_num
  · exact safe_of_clear gEx_lawful (disc_clear water (by norm_num) (by norm_num))
  · refine .surf _ _ _ _ _ _ _ hs hne ?_ ?_
    · exact inn 4 4 (by norm_num) (by norm_num) (by norm_num) (by norm_num)
    · exact inn 9 4 (by norm_num) (by norm_num) (by norm_num) (by norm_num)
  · refine .box _ _ _ _ _ _ hb ?_ ?_ (inn 3 2 (by norm_num) (by norm_num) (by norm_num) (by norm_num))
      (inn 16 17 (by norm_num) (by norm_num) (by norm_num) (by norm_num)) <;> simp only [n] <;> norm_num
  · refine .vol _ _ _ _ _ (i 2 3 (by norm_num) (by norm_num) (by norm_num) (by norm_num))
      (i 7 3 (by norm_num) (by norm_num) (by norm_num) (by norm_num)) ?_ ?_ <;> simp only [n] <;> norm_num
  · refine .cyl _ _ _ _ ?_ ?_ ?_ ?_ ?_ <;> simp only [gEx_dx, gEx_Nx, gEx_Ny] <;> norm_num
  · exact ⟨.volume _ _ (i 2 3 (by norm_num) (by norm_num) (by norm_num) (by norm_num))
      (i 7 9 (by norm_num) (by norm_num) (by norm_num) (by norm_num)) (by simp only [n]; norm_num) (by simp only [n]; norm_num),
      2, by norm_num, by norm_num, rfl⟩
  · exact ⟨.point _ (i 0 19 (by norm_num) (by norm_num) (by norm_num) (by norm_num)), 0, by norm_num, by norm_num, rfl⟩
  · intro o ho
    simp only [List.nil_append, List.modify_zero_cons, List.mem_singleton] at ho
    rw [ho]
    exact safe_of_clear gEx_lawful (disc_clear water (x := 12) (y := 12) (by norm_num) (by norm_num))
  · have add : ∀ (m : Monitor ℝ) (l : List (Op ℝ)) (ms : List (Monitor ℝ)), ms[0]? = some (.surf ref) →
        (∀ ms' : List (Monitor ℝ), ms'[0]? = some (.surf ref) → Matched gEx ms' l) → Matched gEx ms (.addMonitor m :: l) := by
      intro m l ms h0 hl
      unfold Matched
      split
      · exact hl _ (by rw [List.getElem?_append_left (by by_contra hn; rw [List.getElem?_eq_none (by omega)] at h0; cases h0)]; exact h0)
      · exact hl _ h0
    have hself : Meets ref.fourier ref.fourier := by
      intro k a b ha hb
      have e1 : ∀ n' x, (n', x) ∈ ref.fourier.acc → x.pos = pos := by
        intro n' x hx
        have : (n', x.pos) ∈ ref.fourier.layout := List.mem_map_of_mem (f := fun a => (a.1, a.2.pos)) hx
        rw [hl, List.mem_map] at this
        obtain ⟨_, -, e⟩ := this
        exact (Prod.mk.inj e).2.symm
      exact ⟨(e1 k a ha).trans (e1 k b (accFind_mem hb)).symm, rfl⟩
    show Matched gEx [] (.addMonitor (.surf (.make "s" s .tangent [1])) :: _)
    unfold Matched
    have : Monitor.setF gEx (.surf (.make "s" s .tangent [1])) = .ok (.surf ref) := by
      show (do let m ← SurfMon.setF gEx _; pure (Monitor.surf m)) = _
      rw [hr]; rfl
    rw [this]
    refine add _ _ _ rfl fun ms h0 => add _ _ _ h0 fun ms h0 => add _ _ _ h0 fun ms h0 => ?_
    refine ⟨fun m hm => ?_, trivial⟩
    rw [h0] at hm
    cases hm
    exact hself

/-- The history runs, and its calls that look can be left out. -/
example (now : ℕ → ℝ) : ∃ s box ref s0 s' t, Sim.make now gEx "out.h5" = .ok s0 ∧ s0.run now (tour s box ref) = .ok s' ∧
    s0.run now (physical (tour s box ref)) = .ok t ∧ s'.core = t.core := by
  obtain ⟨s, box, ref, h, hm⟩ := tour_inside
  obtain ⟨s0, s', t0, t, h1, h2, h3, h4, h5, -⟩ := C23_inside now now gEx gEx_wide (by rw [gEx_dx]; norm_num) "out.h5" (by decide) _ h hm
  rw [h1] at h3
  cases h3
  exact ⟨s, box, ref, s0, s', t, h1, h2, h4, h5⟩

end Qbox.Props
