import Verif.Model.Sources

/-!
# `include/tfsf.h`, `src/tfsf.cpp`: total-field / scattered-field source
-/

namespace Qbox
open Scalar

/-- `class tfsf`, `include/tfsf.h:29-62`. -/
structure Tfsf (K : Type) where
  vol : Vol K
  ia : ℤ
  ib : ℤ
  ja : ℤ
  jb : ℤ
  tp : TimeProfile K
  fourier : Option (Dft K Unit)
  Nx : ℤ
  dx : K
  dt : K
  t : K
  Ez : Arr K
  Dz : Arr K
  Hx : Arr K
  Iz : Arr K
  ca : Arr K
  cb : Arr K
  left0 : K
  left1 : K
  right0 : K
  right1 : K

/-- Loop state of `src/tfsf.cpp:47-51`. -/
structure Line3 (K : Type) where
  Dz : Arr K
  Ez : Arr K
  Iz : Arr K

section
variable {K : Type} [Scalar K]

/-- `tfsf::tfsf`, `src/tfsf.cpp:14-41`. -/
def Tfsf.make (g : Grid K) (tp : TimeProfile K) (vol : Vol K) (dt : K) : Tfsf K :=
  let iv := g.toGridV vol
  let Nx := iv.dim.y + 5
  { vol := vol, tp := tp, dx := g.dx, dt := dt, t := 0, Nx := Nx,
    ia := iv.a.x, ib := iv.b.x, ja := iv.a.y, jb := iv.b.y,
    Ez := .const Nx 0, Hx := .const Nx 0, Dz := .const Nx 0, Iz := .const Nx 0,
    ca := .const Nx (1 / (1 + 0 * dt)), cb := .const Nx (0 * dt),
    left0 := 0, left1 := 0, right0 := 0, right1 := 0,
    fourier := tp.dft.map (fun d => ((Dft.make d.freq).add "E" [()]).add "H" [()]) }

/-- Body of the electric loop of the 1D line, `src/tfsf.cpp:48-50`. -/
def lineEBody (Hx ca cb : Arr K) (k : ℤ) (s : Line3 K) : M (Line3 K) := do
  let Dz ← s.Dz.wr k ((← s.Dz.rd k) + half * ((← Hx.rd (k - 1)) - (← Hx.rd k)))
  let Ez ← s.Ez.wr k ((← ca.rd k) * ((← Dz.rd k) - (← s.Iz.rd k)))
  let Iz ← s.Iz.wr k ((← s.Iz.rd k) + (← cb.rd k) * (← Ez.rd k))
  pure ⟨Dz, Ez, Iz⟩

/-- Body of the magnetic loop of the 1D line, `src/tfsf.cpp:79`. -/
def lineHBody (Ez : Arr K) (k : ℤ) (Hx : Arr K) : M (Arr K) := do
  Hx.wr k ((← Hx.rd k) + half * ((← Ez.rd k) - (← Ez.rd (k + 1))))

/-- The sampling function of `src/tfsf.cpp:69-74`; a key other than `E`, `H` would fall off the end of the lambda. -/
def tfsfSample (E H : K) (name : String) (_ : Unit) (m : Unit) : M (K × Unit) :=
  if name = "E" then .ok (E, m) else if name = "H" then .ok (H, m) else .error (.ub .noReturn)

/-- `src/tfsf.cpp:63-76`. -/
def tfsfFourier (Ez Hx : Arr K) (prevE t : K) : Option (Dft K Unit) → M (Option (Dft K Unit))
  | none => .ok none
  | some d => do
    let E := ((← Ez.rd 2) + prevE) / ofInt 2
    let H := ((← Hx.rd 2) + (← Hx.rd 1)) / ofInt 2
    let (d', _) ← d.update (tfsfSample E H) t ()
    pure (some d')

/-- `tfsf::pulse`, `src/tfsf.cpp:43-81`. -/
def Tfsf.pulse (w : Tfsf K) : M (Tfsf K) := do
  let t := w.t + w.dt
  let prevE ← w.Ez.rd 2
  let s ← forRange 1 w.Nx ⟨w.Dz, w.Ez, w.Iz⟩ (lineEBody w.Hx w.ca w.cb)
  let (v, tp) ← w.tp.response t
  let Ez ← s.Ez.wr 1 v
  let Ez ← Ez.wr 0 w.left1
  let left1 := w.left0
  let left0 ← Ez.rd 1
  let Ez ← Ez.wr (w.Nx - 1) w.right1
  let right1 := w.right0
  let right0 ← Ez.rd (w.Nx - 2)
  let fourier ← tfsfFourier Ez w.Hx prevE t w.fourier
  let Hx ← forRange 0 (w.Nx - 1) w.Hx (lineHBody Ez)
  pure { w with
    t := t, tp := tp, Dz := s.Dz, Ez := Ez, Iz := s.Iz, Hx := Hx, left0 := left0, left1 := left1,
    right0 := right0, right1 := right1, fourier := fourier }

/-- `a += v` on an element of a tensor. -/
def Tensor.addTo (a : Tensor K) (i j : ℤ) (v : K) : M (Tensor K) := do a.wr i j ((← a.rd i j) + v)

/-- `tfsf::updateD`, `src/tfsf.cpp:83-90`. -/
def Tfsf.updateD (w : Tfsf K) (Ez : Tensor K) : M (Tensor K) :=
  forRange w.ia (w.ib + 1) Ez (fun i Ez => do
    let Ez ← Ez.addTo i w.ja (half * (← w.Hx.rd 2))
    Ez.addTo i w.jb (-half * (← w.Hx.rd (w.Nx - 2))))

/-- `tfsf::updateH`, `src/tfsf.cpp:92-105`. -/
def Tfsf.updateH (w : Tfsf K) (h : HPair K) : M (HPair K) := do
  let Hx ← forRange w.ia (w.ib + 1) h.Hx (fun i Hx => do
    let Hx ← Hx.addTo i (w.ja - 1) (half * (← w.Ez.rd 3))
    Hx.addTo i w.jb (-half * (← w.Ez.rd (w.Nx - 2))))
  let Hy ← forRange w.ja (w.jb + 1) h.Hy (fun j Hy => do
    let Hy ← Hy.addTo (w.ia - 1) j (-half * (← w.Ez.rd (j - w.ja + 3)))
    Hy.addTo w.ib j (half * (← w.Ez.rd (j - w.ja + 3))))
  pure ⟨Hx, Hy⟩

/-- `if (total) total->updateD(this)`, `src/field2.cpp:155-156`. -/
def optUpdateD (o : Option (Tfsf K)) (Ez : Tensor K) : M (Tensor K) :=
  match o with
  | none => .ok Ez
  | some w => w.updateD Ez

/-- `if (total) total->pulse()`, `src/field2.cpp:174-175`. -/
def optPulse (o : Option (Tfsf K)) : M (Option (Tfsf K)) :=
  match o with
  | none => .ok none
  | some w => do let w' ← w.pulse; pure (some w')

/-- `if (total) total->updateH(this)`, `src/field2.cpp:187-188`. -/
def optUpdateH (o : Option (Tfsf K)) (h : HPair K) : M (HPair K) :=
  match o with
  | none => .ok h
  | some w => w.updateH h

/-- `tfsf::reset`, `src/tfsf.cpp:107-117`. -/
def Tfsf.reset (w : Tfsf K) : Tfsf K :=
  { w with
    Ez := .const w.Ez.n 0, Dz := .const w.Dz.n 0, Hx := .const w.Hx.n 0, Iz := .const w.Iz.n 0,
    left0 := 0, left1 := 0, right0 := 0, right1 := 0, t := 0 }

/-- `tfsf::flux`, `src/tfsf.cpp:119-131`: the spectrum; without frequencies control falls off the end of the function. -/
def Tfsf.flux (w : Tfsf K) : M (Arr K) :=
  match w.fourier with
  | none => .error (.ub .noReturn)
  | some d => do
    let E ← d.get "E"
    let H ← d.get "H"
    pure ⟨d.nfreq, fun k => 0 + (E.re () k * H.re () k + E.im () k * H.im () k)⟩

end

end Qbox
