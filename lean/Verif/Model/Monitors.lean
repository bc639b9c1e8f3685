import Verif.Model.Core

/-!
# `include/monitors/*.h`, `src/monitors/*.cpp` and `Field2D::interpolate`

Every monitor is modelled together with the field data it samples.  `F->dx`, `F->grid` are the grid argument `g`; `F->t` is
the argument `t`.  The HDF5 groups created by `get_group` and the properties written by `set_F` are in `Verif/Model/Output.lean`.
-/

namespace Qbox
open Scalar

/-- The tag types `DFT::Ez`, `DFT::Hx`, `DFT::Hy`, `DFT::all`, `DFT::tangent` (`include/dft.h:27-33`) that choose the recorded
components. -/
inductive DftTag | Ez | Hx | Hy | all | tangent
  deriving DecidableEq, Repr

/-- `std::complex<double>` -/
@[ext] structure Cx (K : Type) where
  re : K
  im : K

section
variable {K : Type} [Scalar K]

/-! ### Interpolation -/

/-- The weighted sum of `src/field2.cpp:263-276` on the node coordinates `ps`. -/
def bilinear (F : Tensor K) (ps : V2 K) : M K := do
  let x0 := floorI ps.x
  let x1 := ceilI ps.x
  let y0 := floorI ps.y
  let y1 := ceilI ps.y
  let x := ps.x - ofInt x0
  let y := ps.y - ofInt y0
  let a1 := (1 - x) * (1 - y)
  let a2 := x * (1 - y)
  let a3 := x * y
  let a4 := (1 - x) * y
  pure (a1 * (← F.rd x0 y0) + a2 * (← F.rd x1 y0) + a3 * (← F.rd x1 y1) + a4 * (← F.rd x0 y1))

/-- The node coordinates used by `interpolate`, `src/field2.cpp:253`, `:256-261`. -/
def interpPos (g : Grid K) (C : Fields) (p : V2 K) : V2 K :=
  let ps := V2.sdiv p g.dx
  match C with
  | .Hx => ps + V2.smul (ofInt 2) ⟨0, -g.dx / ofInt 2⟩
  | .Hy => ps + V2.smul (ofInt 2) ⟨-g.dx / ofInt 2, 0⟩
  | _ => ps + ⟨0, 0⟩

/-- `Field2D::interpolate`, `src/field2.cpp:252-277`. `get_field_ref` throws for the components that the `switch` rejects. -/
def Flds.interpolate (g : Grid K) (f : Flds K) (C : Fields) (p : V2 K) : M K := do
  let F ← f.get C
  bilinear F (interpPos g C p)

/-! ### Surface monitors -/

/-- `surface_monitor<T>`, `include/monitors/surface_monitor.h:17-256`. -/
structure SurfMon (K : Type) where
  name : String
  surf : Surf K
  tag : DftTag
  length : ℤ
  prevE : Arr K
  fourier : Dft K ℤ

/-- `surface_monitor(name, surf, freq)`, `include/monitors/surface_monitor.h:22`. -/
def SurfMon.make (name : String) (surf : Surf K) (tag : DftTag) (freq : List K) : SurfMon K :=
  ⟨name, surf, tag, 0, .const 0 0, Dft.make freq⟩

/-- The components added by `set_F`, `include/monitors/surface_monitor.h:33-45`. -/
def surfKeys (tag : DftTag) (is : ISurf) : List String :=
  match tag with
  | .Ez => ["Ez"]
  | .Hx => ["Hx"]
  | .Hy => ["Hy"]
  | .all => ["Ez", "Hx", "Hy"]
  | .tangent => if is.dim.x = 0 then ["Ez", "Hy"] else ["Ez", "Hx"]

/-- Consecutive `fourier.add(name, dims)`. -/
def Dft.addAll {P : Type} (d : Dft K P) (pos : List P) (keys : List String) : Dft K P :=
  keys.foldl (fun d n => d.add n pos) d

/-- `surface_monitor::set_F`, `include/monitors/surface_monitor.h:26-55`. -/
def SurfMon.setF (g : Grid K) (m : SurfMon K) : M (SurfMon K) := do
  let is ← g.toGridS m.surf
  let length := is.dim.inorm
  pure { m with
    length := length, prevE := .const length 0,
    fourier := m.fourier.addAll (intRange 0 length) (surfKeys m.tag is) }

/-- The sampled position `pr`, `include/monitors/surface_monitor.h:102-103`. -/
def surfPoint (g : Grid K) (surf : Surf K) (is : ISurf) (i : ℤ) : V2 K :=
  g.toReal (is.a + V2.smul i is.tangent) + V2.smul (g.dx / ofInt 2) surf.tangent

/-- The sampling function of `update`, `include/monitors/surface_monitor.h:98-128`; a key other than the three components
would fall off the end of the lambda. -/
def surfSample (g : Grid K) (f : Flds K) (surf : Surf K) (is : ISurf) (comp : String) (i : ℤ) (prevE : Arr K) :
    M (K × Arr K) :=
  if comp = "Ez" then do
    let tempE ← f.interpolate g .Ez (surfPoint g surf is i)
    let E := (tempE + (← prevE.rd i)) / ofInt 2
    let prevE ← prevE.wr i tempE
    pure (E, prevE)
  else if comp = "Hx" then do
    let H ← f.interpolate g .Hx (surfPoint g surf is i)
    pure (H, prevE)
  else if comp = "Hy" then do
    let H ← f.interpolate g .Hy (surfPoint g surf is i)
    pure (H, prevE)
  else .error (.ub .noReturn)

/-- `surface_monitor::update`, `include/monitors/surface_monitor.h:94-128`. -/
def SurfMon.update (g : Grid K) (f : Flds K) (t : K) (m : SurfMon K) : M (SurfMon K) := do
  let is ← g.toGridS m.surf
  let (fourier, prevE) ← m.fourier.update (surfSample g f m.surf is) t m.prevE
  pure { m with fourier := fourier, prevE := prevE }

/-- `S = 0; for (int i = 0; i < n; i++) S += term(i)` -/
def sumTo (n : ℤ) (term : ℤ → K) : K := (intRange 0 n).foldl (fun s i => s + term i) 0

/-- `compute_flux`, `src/monitors/flux.cpp:19-32`. The value at frequency index `j`. -/
def computeFlux (E H : Acc K ℤ) (da : K) (sg : Sgn) (j : ℤ) : K :=
  sumTo E.pos.length (fun i => E.re i j * H.re i j + E.im i j * H.im i j) * (da * ofInt sg.toInt)

/-- `surf.dim[0] == 0 ? fourier("Hy") : fourier("Hx")`, e.g. `include/monitors/surface_monitor.h:169`. -/
def SurfMon.Ht (m : SurfMon K) : M (Acc K ℤ) :=
  if eqb m.surf.dim.x 0 then m.fourier.get "Hy" else m.fourier.get "Hx"

/-- `surf.dim[0] == 0 ? fourier("Hx") : fourier("Hy")`, e.g. `include/monitors/surface_monitor.h:222`. -/
def SurfMon.Hn (m : SurfMon K) : M (Acc K ℤ) :=
  if eqb m.surf.dim.x 0 then m.fourier.get "Hx" else m.fourier.get "Hy"

/-- `surface_monitor::flux`, `include/monitors/surface_monitor.h:165-176`. -/
def SurfMon.flux (g : Grid K) (m : SurfMon K) : M (ℤ → K) := do
  let E ← m.fourier.get "Ez"
  let H ← m.Ht
  let factor : ℤ := if eqb m.surf.dim.x 0 then -1 else 1
  let da := ofInt factor * g.dx
  pure (computeFlux E H da m.surf.sg)

/-! ### Near-to-far-field transform -/

/-- product of complex numbers -/
def Cx.mul (a b : Cx K) : Cx K := ⟨a.re * b.re - a.im * b.im, a.re * b.im + a.im * b.re⟩
/-- sum of complex numbers -/
def Cx.add (a b : Cx K) : Cx K := ⟨a.re + b.re, a.im + b.im⟩
/-- real multiple of a complex number -/
def Cx.smul (c : K) (a : Cx K) : Cx K := ⟨c * a.re, c * a.im⟩
/-- `exp(1i*x)` for a real `x` -/
def Cx.cis (x : K) : Cx K := ⟨Scalar.cos x, Scalar.sin x⟩

/-- `E.real(i,j) + 1i*E.imag(i,j)` -/
def Acc.cx (a : Acc K ℤ) (i j : ℤ) : Cx K := ⟨a.re i j, a.im i j⟩

/-- `omega` (and `k`) at frequency index `j`, `include/monitors/surface_monitor.h:185-186`. -/
def dftOmega (freq : List K) (j : ℤ) : K := ofInt 2 * Scalar.pi * freq.getD j.toNat 0

/-- `factor` at frequency index `j`, `include/monitors/surface_monitor.h:187`. -/
def ntffFactor (freq : List K) (r : K) (j : ℤ) : Cx K :=
  let k := dftOmega freq j
  let c := Cx.cis (Scalar.pi / ofInt 4 - k * r)
  let d := Scalar.sqrt (ofInt 8 * r * Scalar.pi * k)
  ⟨c.re / d, c.im / d⟩

/-- One term of the integral, `include/monitors/surface_monitor.h:204-209` and `include/monitors/cylinder_monitor.h:111-116`. -/
def ntffTerm (freq : List K) (E H : Acc K ℤ) (Jsgn Msgn angle phase : K) (i j : ℤ) : Cx K :=
  let k := dftOmega freq j
  let Jeq := Cx.smul (Jsgn * k) (H.cx i j)
  let Meq := Cx.smul angle (Cx.smul (Msgn * k) (E.cx i j))
  Cx.mul (Cx.add Jeq Meq) (Cx.cis (k * phase))

/-- `integral[j]`: the loop over the points, `include/monitors/surface_monitor.h:200-212`. -/
def cxSumTo (n : ℤ) (term : ℤ → Cx K) : Cx K := (intRange 0 n).foldl (fun s i => Cx.add s (term i)) ⟨0, 0⟩

/-- `surface_monitor::ntff`, `include/monitors/surface_monitor.h:178-215`. -/
def SurfMon.ntff (g : Grid K) (m : SurfMon K) (center pc : V2 K) : M (ℤ → Cx K) := do
  let p := pc - center
  let r := p.norm
  let normal := m.surf.normal.cabs
  let Jsgn := m.surf.tangent.dot ⟨1, 1⟩
  let Msgn := m.surf.tangent.dot ⟨ofInt (-1), 1⟩
  let E ← m.fourier.get "Ez"
  let H ← m.Ht
  pure (fun j => Cx.mul (ntffFactor m.fourier.freq r j) (cxSumTo m.length (fun i =>
    let p' := m.surf.a + V2.smul g.dx (V2.smul (ofInt i) m.surf.tangent) - center
    ntffTerm m.fourier.freq E H Jsgn Msgn (p.dot normal / r) (p.dot p' / r) i j)))

/-! ### Force and torque -/

/-- `dF`: the second column of the stress tensor times the sign and the length element, `src/monitors/force.cpp:41-51`. -/
def traction (E Ht Hn : Cx K) (da : K) (sg : Sgn) : V2 K :=
  let nrm (z : Cx K) : K := z.re * z.re + z.im * z.im
  let Hsq := nrm Ht + nrm Hn
  let Esq := nrm E
  let s01 := Ht.re * Hn.re + Ht.im * Hn.im
  let s11 := nrm Hn - half * Hsq - half * Esq
  ⟨s01 * ofInt sg.toInt * da, s11 * ofInt sg.toInt * da⟩

/-- `compute_force`, `src/monitors/force.cpp:31-57`: both rows at frequency index `j`. -/
def computeForce (E Ht Hn : Acc K ℤ) (tangent normal : ℤ → V2 K) (da : K) (sg : Sgn) (j : ℤ) : V2 K :=
  let dF (i : ℤ) := traction (E.cx i j) (Ht.cx i j) (Hn.cx i j) da sg
  ⟨sumTo E.pos.length (fun i => (dF i).x * (tangent i).x + (dF i).y * (normal i).x),
   sumTo E.pos.length (fun i => (dF i).x * (tangent i).y + (dF i).y * (normal i).y)⟩

/-- `compute_torque`, `src/monitors/force.cpp:59-88`. -/
def computeTorque (E Ht Hn : Acc K ℤ) (pos tangent normal : ℤ → V2 K) (da : K) (sg : Sgn) (j : ℤ) : K :=
  sumTo E.pos.length (fun i =>
    let dF := traction (E.cx i j) (Ht.cx i j) (Hn.cx i j) da sg
    let c := V2.smul dF.x (tangent i) + V2.smul dF.y (normal i)
    (pos i).x * c.y - (pos i).y * c.x)

/-- `surface_monitor::partial_force`, `include/monitors/surface_monitor.h:217-229`. -/
def SurfMon.partialForce (g : Grid K) (m : SurfMon K) : M (ℤ → V2 K) := do
  let E ← m.fourier.get "Ez"
  let Ht ← m.Ht
  let Hn ← m.Hn
  pure (computeForce E Ht Hn (fun _ => m.surf.tangent.cabs) (fun _ => m.surf.normal.cabs) g.dx m.surf.sg)

/-- `surface_monitor::partial_torque`, `include/monitors/surface_monitor.h:231-246`. -/
def SurfMon.partialTorque (g : Grid K) (m : SurfMon K) (center : V2 K) : M (ℤ → K) := do
  let E ← m.fourier.get "Ez"
  let Ht ← m.Ht
  let Hn ← m.Hn
  pure (computeTorque E Ht Hn
    (fun i => m.surf.a + V2.smul g.dx (V2.smul (ofInt i + half) m.surf.tangent) - center)
    (fun _ => m.surf.tangent.cabs) (fun _ => m.surf.normal.cabs) g.dx m.surf.sg)

/-- `rank_monitor::operator-=`, `include/monitors/rank_monitor.h:16-18`. -/
def SurfMon.sub (m o : SurfMon K) : M (SurfMon K) := do
  let d ← m.fourier.sub o.fourier
  pure { m with fourier := d }

/-- The left side of `-=` when it is left by an exception, `include/monitors/rank_monitor.h:16-18`. -/
def SurfMon.subLeft (m o : SurfMon K) : SurfMon K := { m with fourier := m.fourier.subLeft o.fourier }

/-! ### Box monitors -/

/-- `box_monitor<T>`, `include/monitors/box_monitor.h:15-120`; `faces` is `monitors[4]`; `fourier` is the inherited member, to
which no component is ever added. -/
structure BoxMon (K : Type) where
  name : String
  vol : Vol K
  nfreq : ℤ
  faces : List (SurfMon K)
  fourier : Dft K ℤ

/-- `box_monitor(name, vol, freq)`, `include/monitors/box_monitor.h:19-25`. -/
def BoxMon.make (name : String) (vol : Vol K) (tag : DftTag) (freq : List K) : M (BoxMon K) := do
  let s1 ← vol.getSurface .y_bottom
  let s2 ← vol.getSurface .x_top
  let s3 ← vol.getSurface .y_top
  let s4 ← vol.getSurface .x_bottom
  pure { name := name, vol := vol, nfreq := freq.length, fourier := Dft.make freq,
         faces := [.make (name ++ "_1") s1 tag freq, .make (name ++ "_2") s2 tag freq,
                   .make (name ++ "_3") s3 tag freq, .make (name ++ "_4") s4 tag freq] }

/-- A loop that replaces every element of a list, in order. -/
def mapM' {α : Type} (step : α → M α) : List α → M (List α)
  | [] => .ok []
  | a :: l => do
    let a' ← step a
    let l' ← mapM' step l
    pure (a' :: l')

/-- `box_monitor::set_F`, `include/monitors/box_monitor.h:29-37`. -/
def BoxMon.setF (g : Grid K) (m : BoxMon K) : M (BoxMon K) := do
  let l ← mapM' (SurfMon.setF g) m.faces
  pure { m with faces := l }

/-- `box_monitor::update`, `include/monitors/box_monitor.h:39-42`. -/
def BoxMon.update (g : Grid K) (f : Flds K) (t : K) (m : BoxMon K) : M (BoxMon K) := do
  let l ← mapM' (SurfMon.update g f t) m.faces
  pure { m with faces := l }

/-- `S = 0; for each face S += part(face)` with real, complex or vector parts. -/
def sumFaces {α β : Type} (add : β → β → β) (part : α → M (ℤ → β)) : List α → (ℤ → β) → M (ℤ → β)
  | [], S => .ok S
  | m :: l, S => do
    let Sm ← part m
    sumFaces add part l (fun j => add (S j) (Sm j))

/-- `box_monitor::flux`, `include/monitors/box_monitor.h:44-52`. -/
def BoxMon.flux (g : Grid K) (m : BoxMon K) : M (ℤ → K) :=
  sumFaces (· + ·) (SurfMon.flux g) m.faces (fun _ => 0)

/-- `box_monitor::ntff(p)`, `include/monitors/box_monitor.h:54-62`. -/
def BoxMon.ntff (g : Grid K) (m : BoxMon K) (p : V2 K) : M (ℤ → Cx K) :=
  sumFaces Cx.add (fun s => SurfMon.ntff g s m.vol.center p) m.faces (fun _ => ⟨0, 0⟩)

/-- `box_monitor::force`, `include/monitors/box_monitor.h:77-85`. -/
def BoxMon.force (g : Grid K) (m : BoxMon K) : M (ℤ → V2 K) :=
  sumFaces (· + ·) (SurfMon.partialForce g) m.faces (fun _ => ⟨0, 0⟩)

/-- `box_monitor::torque`, `include/monitors/box_monitor.h:87-95`. -/
def BoxMon.torque (g : Grid K) (m : BoxMon K) : M (ℤ → K) :=
  sumFaces (· + ·) (fun s => SurfMon.partialTorque g s m.vol.center) m.faces (fun _ => 0)

/-- `monitors[i] -= other.monitors[i]` for every face. -/
def subFaces : List (SurfMon K) → List (SurfMon K) → M (List (SurfMon K))
  | m :: l, o :: k => do
    let m' ← m.sub o
    let l' ← subFaces l k
    pure (m' :: l')
  | l, _ => .ok l

/-- `box_monitor::operator-=`, `include/monitors/box_monitor.h:98-101`. -/
def BoxMon.sub (m o : BoxMon K) : M (BoxMon K) := do
  let l ← subFaces m.faces o.faces
  pure { m with faces := l }

/-- The faces when `-=` is left by an exception: those before the one that throws are subtracted, that one in part. -/
def subFacesLeft : List (SurfMon K) → List (SurfMon K) → List (SurfMon K)
  | m :: l, o :: k =>
    match m.sub o with
    | .ok m' => m' :: subFacesLeft l k
    | .error _ => m.subLeft o :: l
  | l, _ => l

/-- The left side of `-=` when it is left by an exception, `include/monitors/box_monitor.h:98-101`. -/
def BoxMon.subLeft (m o : BoxMon K) : BoxMon K := { m with faces := subFacesLeft m.faces o.faces }

/-! ### Volume monitors -/

/-- `volume_monitor<T>`, `include/monitors/volume_monitor.h:11-72`. -/
structure VolMon (K : Type) where
  name : String
  vol : Vol K
  tag : DftTag
  fourier : Dft K (ℤ × ℤ)

/-- `volume_monitor(name, vol, freq)`, `include/monitors/volume_monitor.h:15-17`. -/
def VolMon.make (name : String) (vol : Vol K) (tag : DftTag) (freq : List K) : VolMon K :=
  ⟨name, vol, tag, Dft.make freq⟩

/-- The components added by `set_F` of volume and point monitors, `include/monitors/volume_monitor.h:29-34`,
`include/monitors/point_monitor.h:24-29`; `DFT::tangent` does not compile. -/
def volKeys : DftTag → List String
  | .Ez => ["Ez"]
  | .Hx => ["Hx"]
  | .Hy => ["Hy"]
  | .all => ["Ez", "Hx", "Hy"]
  | .tangent => []

/-- The positions of a rank 2 transform with dimensions `Nx`, `Ny` in loop order, `src/dft.cpp:90-91`. -/
def pos2 (Nx Ny : ℤ) : List (ℤ × ℤ) := (intRange 0 Nx).flatMap (fun i => (intRange 0 Ny).map (fun j => (i, j)))

/-- `volume_monitor::set_F`, `include/monitors/volume_monitor.h:22-39`. -/
def VolMon.setF (g : Grid K) (m : VolMon K) : VolMon K :=
  let iv := g.toGridV m.vol
  { m with fourier := m.fourier.addAll (pos2 (iv.dim.x + 1) (iv.dim.y + 1)) (volKeys m.tag) }

/-- `volume_monitor::locate`, `include/monitors/volume_monitor.h:41-64`. -/
def volSample (f : Flds K) (iv : IVol) (comp : String) (q : ℤ × ℤ) (u : Unit) : M (K × Unit) :=
  let p := iv.a + ⟨q.1, q.2⟩
  if comp = "Ez" then do let v ← f.Ez.rd p.x p.y; pure (v, u)
  else if comp = "Hx" then do let v ← f.Hx.rd p.x p.y; pure (v, u)
  else if comp = "Hy" then do let v ← f.Hy.rd p.x p.y; pure (v, u)
  else .error (.ub .noReturn)

/-- `volume_monitor::update`, `include/monitors/volume_monitor.h:66-68`. -/
def VolMon.update (g : Grid K) (f : Flds K) (t : K) (m : VolMon K) : M (VolMon K) := do
  let (d, _) ← m.fourier.update (volSample f (g.toGridV m.vol)) t ()
  pure { m with fourier := d }

/-! ### Point monitors -/

/-- `point_monitor<T>`, `include/monitors/point_monitor.h:11-69`. -/
structure PointMon (K : Type) where
  name : String
  pos : V2 K
  tag : DftTag
  prevE : K
  fourier : Dft K Unit

/-- `point_monitor(name, pos, freq)`, `include/monitors/point_monitor.h:15-17`. -/
def PointMon.make (name : String) (pos : V2 K) (tag : DftTag) (freq : List K) : PointMon K :=
  ⟨name, pos, tag, 0, Dft.make freq⟩

/-- `point_monitor::set_F`, `include/monitors/point_monitor.h:21-34`. -/
def PointMon.setF (m : PointMon K) : PointMon K :=
  { m with fourier := m.fourier.addAll [()] (volKeys m.tag) }

/-- The closures of `point_monitor::locate`, `include/monitors/point_monitor.h:36-60`. `ipos` is what reading the captured
reference gives. -/
def pointSample (f : Flds K) (ipos : M (V2 ℤ)) (comp : String) (_ : Unit) (prevE : K) : M (K × K) :=
  if comp = "Ez" then do
    let p ← ipos
    let E := ((← f.Ez.rd p.x p.y) + prevE) / ofInt 2
    let prev ← f.Ez.rd p.x p.y
    pure (E, prev)
  else if comp = "Hx" then do
    let p ← ipos
    let H := ((← f.Hx.rd p.x p.y) + (← f.Hx.rd p.x (p.y - 1))) / ofInt 2
    pure (H, prevE)
  else if comp = "Hy" then do
    let p ← ipos
    let H := ((← f.Hy.rd p.x p.y) + (← f.Hy.rd (p.x - 1) p.y)) / ofInt 2
    pure (H, prevE)
  else .error (.ub .noReturn)

/-- `point_monitor::update` with a given meaning of the captured reference. -/
def PointMon.updateWith (f : Flds K) (t : K) (m : PointMon K) (ipos : M (V2 ℤ)) : M (PointMon K) := do
  let (d, prevE) ← m.fourier.update (pointSample f ipos) t m.prevE
  pure { m with fourier := d, prevE := prevE }

/-- `point_monitor::update`, `include/monitors/point_monitor.h:62-64`. The closures capture the local variable `ipos` of
`locate` by reference (`:40`, `:49`, `:56`) and run after `locate` has returned, so reading it is undefined behaviour. -/
def PointMon.update (f : Flds K) (t : K) (m : PointMon K) : M (PointMon K) :=
  m.updateWith f t (.error (.ub .dangling))

/-! ### Cylinder monitors -/

/-- `cylinder_monitor<T>`, `include/monitors/cylinder_monitor.h:13-194`. -/
structure CylMon (K : Type) where
  name : String
  surf : CylSurf K
  tag : DftTag
  length : ℤ
  prevE : Arr K
  fourier : Dft K ℤ

/-- `cylinder_monitor(name, surf, freq)`, `include/monitors/cylinder_monitor.h:18-20`. -/
def CylMon.make (name : String) (surf : CylSurf K) (tag : DftTag) (freq : List K) : CylMon K :=
  ⟨name, surf, tag, 0, .const 0 0, Dft.make freq⟩

/-- The components added by `set_F`, `include/monitors/cylinder_monitor.h:29-37`; Cartesian tags do not compile. -/
def cylKeys : DftTag → List String
  | .all => ["Ez", "Hp", "Hr"]
  | .tangent => ["Ez", "Hp"]
  | _ => []

/-- `cylinder_monitor::set_F`, `include/monitors/cylinder_monitor.h:24-42`. -/
def CylMon.setF (g : Grid K) (m : CylMon K) : CylMon K :=
  let length := ceilI (ofInt 2 * Scalar.pi * m.surf.radius / g.dx)
  { m with
    length := length, prevE := .const length 0,
    fourier := m.fourier.addAll (intRange 0 length) (cylKeys m.tag) }

/-- `theta`, `include/monitors/cylinder_monitor.h:47`. -/
def cylTheta (length i : ℤ) : K := ofInt 2 * Scalar.pi * (ofInt i + half) / ofInt length

/-- `cylinder_monitor::locate`, `include/monitors/cylinder_monitor.h:44-71`. -/
def cylSample (g : Grid K) (f : Flds K) (surf : CylSurf K) (length : ℤ) (comp : String) (i : ℤ) (prevE : Arr K) :
    M (K × Arr K) :=
  let theta : K := cylTheta length i
  let pr := surf.position theta
  if comp = "Ez" then do
    let tempE ← f.interpolate g .Ez pr
    let E := (tempE + (← prevE.rd i)) / ofInt 2
    let prevE ← prevE.wr i tempE
    pure (E, prevE)
  else if comp = "Hp" then do
    let hx ← f.interpolate g .Hx pr
    let hy ← f.interpolate g .Hy pr
    pure (V2.dot ⟨hx, hy⟩ (surf.tangent theta), prevE)
  else if comp = "Hr" then do
    let hx ← f.interpolate g .Hx pr
    let hy ← f.interpolate g .Hy pr
    pure (V2.dot ⟨hx, hy⟩ (surf.normal theta), prevE)
  else .error (.ub .noReturn)

/-- `cylinder_monitor::update`, `include/monitors/cylinder_monitor.h:73-75`. -/
def CylMon.update (g : Grid K) (f : Flds K) (t : K) (m : CylMon K) : M (CylMon K) := do
  let (fourier, prevE) ← m.fourier.update (cylSample g f m.surf m.length) t m.prevE
  pure { m with fourier := fourier, prevE := prevE }

/-- `da`, `include/monitors/cylinder_monitor.h:82`. -/
def CylMon.da (m : CylMon K) : K := ofInt 2 * Scalar.pi * m.surf.radius / ofInt m.length

/-- `cylinder_monitor::flux`, `include/monitors/cylinder_monitor.h:77-86`. -/
def CylMon.flux (m : CylMon K) : M (ℤ → K) := do
  let E ← m.fourier.get "Ez"
  let H ← m.fourier.get "Hp"
  pure (computeFlux E H m.da .Negative)

/-- `cylinder_monitor::ntff`, `include/monitors/cylinder_monitor.h:88-122`. -/
def CylMon.ntff (m : CylMon K) (pc : V2 K) : M (ℤ → Cx K) := do
  let p := pc - m.surf.center
  let r := p.norm
  let E ← m.fourier.get "Ez"
  let H ← m.fourier.get "Hp"
  pure (fun j => Cx.mul (ntffFactor m.fourier.freq r j) (cxSumTo m.length (fun i =>
    let th := cylTheta m.length i
    let p' := m.surf.position th - m.surf.center
    ntffTerm m.fourier.freq E H 1 (ofInt (-1)) (p.dot (m.surf.normal th) / r) (p.dot p' / r) i j)))

/-- `cylinder_monitor::force`, `include/monitors/cylinder_monitor.h:124-144`. -/
def CylMon.force (m : CylMon K) : M (ℤ → V2 K) := do
  let E ← m.fourier.get "Ez"
  let Ht ← m.fourier.get "Hp"
  let Hn ← m.fourier.get "Hr"
  pure (computeForce E Ht Hn (fun i => m.surf.tangent (cylTheta m.length i))
    (fun i => m.surf.normal (cylTheta m.length i)) m.da .Positive)

/-- `cylinder_monitor::torque`, `include/monitors/cylinder_monitor.h:146-170`. The lambda `pos` has a deduced return type: it
returns the Eigen expression `surf.position(theta) - surf.center`, which refers to the temporary returned by `position`
(plain matrices are nested by reference). It is evaluated by the caller when the temporary is gone, so computing the torque
of a monitor with at least one point is undefined behaviour. -/
def CylMon.torque (m : CylMon K) : M (ℤ → K) := do
  let E ← m.fourier.get "Ez"
  let _ ← m.fourier.get "Hp"
  let _ ← m.fourier.get "Hr"
  if E.pos = [] then pure (fun _ => 0) else .error (.ub .dangling)

/-! ### All DFT monitors -/

/-- A member of `monitor_list`. -/
inductive Monitor (K : Type)
  | surf (m : SurfMon K)
  | box (m : BoxMon K)
  | vol (m : VolMon K)
  | point (m : PointMon K)
  | cyl (m : CylMon K)

/-- the virtual call `set_F(this)` -/
def Monitor.setF (g : Grid K) : Monitor K → M (Monitor K)
  | .surf m => do let m ← m.setF g; pure (.surf m)
  | .box m => do let m ← m.setF g; pure (.box m)
  | .vol m => .ok (.vol (m.setF g))
  | .point m => .ok (.point m.setF)
  | .cyl m => .ok (.cyl (m.setF g))

/-- the virtual call `update()` -/
def Monitor.update (g : Grid K) (f : Flds K) (t : K) : Monitor K → M (Monitor K)
  | .surf m => do let m ← m.update g f t; pure (.surf m)
  | .box m => do let m ← m.update g f t; pure (.box m)
  | .vol m => do let m ← m.update g f t; pure (.vol m)
  | .point m => do let m ← m.update f t; pure (.point m)
  | .cyl m => do let m ← m.update g f t; pure (.cyl m)

end

end Qbox
