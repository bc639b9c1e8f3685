import Verif.Model.Vec

/-!
# `include/grid.h`, `src/grid.cpp`
-/

namespace Qbox
open Scalar

/-- `class grid_properties`, `include/grid.h:11-42`. `T` is the stored `pml_thickness`, one more than the
constructor argument. -/
structure Grid (K : Type) where
  Lx : K
  Ly : K
  Nx : ℤ
  Ny : ℤ
  dx : K
  dt : K
  res : K
  T : ℤ

section
variable {K : Type} [Scalar K]

/-- `grid_properties::grid_properties`, `src/grid.cpp:8-16`. -/
def Grid.make (Lx Ly res : K) (pml : ℤ) : Grid K :=
  let Nx := ceilI (Lx * res)
  let Ny := ceilI (Ly * res)
  let dx := 1 / res
  { res := res, T := pml + 1, Nx := Nx, Ny := Ny, dx := dx,
    Lx := dx * ofInt (Nx - 1), Ly := dx * ofInt (Ny - 1), dt := dx / ofInt 2 }

/-- `to_grid(vec)`, `src/grid.cpp:18-20`. -/
def Grid.toGrid (g : Grid K) (p : V2 K) : V2 ℤ := ⟨roundI (p.x / g.dx), roundI (p.y / g.dx)⟩

/-- `to_real(ivec)`, `src/grid.cpp:22-24`. -/
def Grid.toReal (g : Grid K) (p : V2 ℤ) : V2 K := ⟨g.dx * ofInt p.x, g.dx * ofInt p.y⟩

/-- `to_grid(surface)`, `src/grid.cpp:26-28`. -/
def Grid.toGridS (g : Grid K) (s : Surf K) : M ISurf := ISurf.make (g.toGrid s.a) (g.toGrid s.b) s.sg

/-- `to_real(isurface)`, `src/grid.cpp:30-32`. -/
def Grid.toRealS (g : Grid K) (s : ISurf) : M (Surf K) := Surf.make (g.toReal s.a) (g.toReal s.b) s.sg

/-- `to_grid(volume)`, `src/grid.cpp:34-36`. -/
def Grid.toGridV (g : Grid K) (v : Vol K) : IVol := IVol.make (g.toGrid v.a) (g.toGrid v.b)

/-- `to_real(ivolume)`, `src/grid.cpp:38-40`. -/
def Grid.toRealV (g : Grid K) (v : IVol) : Vol K := Vol.make (g.toReal v.a) (g.toReal v.b)

/-- `clip(volume)`, `src/grid.cpp:42-56`. -/
def Grid.clip (g : Grid K) (v : Vol K) : Vol K :=
  let ax := if ltb v.a.x 0 then 0 else v.a.x
  let bx := if ltb v.b.x 0 then 0 else v.b.x
  let ay := if ltb g.Lx v.a.y then g.Lx else v.a.y
  let by' := if ltb g.Ly v.b.y then g.Ly else v.b.y
  Vol.make ⟨ax, ay⟩ ⟨bx, by'⟩

/-- `clip(ivolume)`, `src/grid.cpp:58-72`. -/
def Grid.clipI (g : Grid K) (v : IVol) : IVol :=
  let ax := if v.a.x < 0 then 0 else v.a.x
  let bx := if v.b.x < 0 then 0 else v.b.x
  let ay := if v.a.y > g.Nx - 1 then g.Nx - 1 else v.a.y
  let by' := if v.b.y > g.Ny - 1 then g.Ny - 1 else v.b.y
  IVol.make ⟨ax, ay⟩ ⟨bx, by'⟩

/-- `domain()`, `include/grid.h:29`. -/
def Grid.domain (g : Grid K) : Vol K := Vol.make ⟨0, 0⟩ ⟨g.Lx, g.Ly⟩

/-- `interior()`, `include/grid.h:30`. -/
def Grid.interior (g : Grid K) : Vol K :=
  Vol.make ⟨g.dx * ofInt g.T, g.dx * ofInt g.T⟩ ⟨g.Lx - g.dx * ofInt g.T, g.Ly - g.dx * ofInt g.T⟩

end

end Qbox
