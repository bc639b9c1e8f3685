import Verif.Lemmas.NumberRun
import Verif.Lemmas.NanSpread
import Verif.Props.WindowProps

/-!
# C79: every field value is a number

In an arithmetic with infinities and NaN (`Spec/NumberSpec.lean`) a program with sound inputs computes numbers, the same as in exact
arithmetic: no coefficient is a quotient by zero, and the convention `x / 0 = 0` of `ℝ` is not used anywhere on the way. The one exception
is a layer of zero cells, where `thickness - 1` is zero: there, row after row turns into NaN.
-/

namespace Qbox.Props
open Qbox Scalar Spec Spec.Xr

/-! ## What the user gives to the two programs -/

theorem finSignal_gaussian (f sig T0 : ℝ) : FinSignal (.gaussian (fin f) (fin sig) (fin T0)) (.gaussian f sig T0) := by
  refine ⟨fun t => ?_, none, rfl, rfl⟩
  show gaussianResp (fin f) (fin sig) (fin T0) (fin t) = fin (gaussianResp f sig T0 t)
  simp only [gaussianResp, Num.ofInt_fin, Num.pi_fin, Num.mul_fin, Num.sub_fin, Num.sin_fin, Num.npow_fin, Num.exp_fin, ofInt_real, pi_real,
    sin_real, exp_real, npow_real]

theorem finSignal_continuous (f : ℝ) : FinSignal (.continuous (fin f)) (.continuous f) := by
  refine ⟨fun t => ?_, none, rfl, rfl⟩
  show Scalar.sin (ofInt 2 * Scalar.pi * fin f * fin t) = fin (Scalar.sin (ofInt 2 * Scalar.pi * f * t))
  simp only [Num.ofInt_fin, Num.pi_fin, Num.mul_fin, Num.sin_fin, ofInt_real, pi_real, sin_real]

/-- A signal that records its spectrum. -/
theorem FinSignal.freq {p' : TimeProfile Xr} {p : TimeProfile ℝ} (h : FinSignal p' p) (fr : List ℝ) :
    FinSignal (p'.freq (fr.map fin)) (p.freq fr) := ⟨h.resp, some fr, rfl, rfl⟩

theorem fin_rotVec (a : ℝ) (v : V2 ℝ) : rotVec (fin a) (finV v) = finV (rotVec a v) := by
  simp only [rotVec, finV, Num.cos_fin, Num.sin_fin, Num.neg_fin, Num.mul_fin, Num.add_fin, cos_real, sin_real]

/-- An object of which the geometry gives the same answers. -/
theorem finObj_of {n n' : String} {G : Geometry ℝ} {G' : Geometry Xr} (m : String) (k : MatKind ℝ) (pos : V2 ℝ) (θ : ℝ)
    (hi : ∀ p, G'.inside (finV p) = G.inside p)
    (hb : Option.Rel (fun b' b => b'.a = finV b.a ∧ b'.b = finV b.b) (G'.bbox (fin θ)) (G.bbox θ)) :
    FinObj ⟨n', G', ⟨m, finKind k⟩, finV pos, fin θ⟩ ⟨n, G, ⟨m, k⟩, pos, θ⟩ := by
  refine ⟨rfl, rfl, fun p => ?_, ?_⟩
  · have e : V2.neg (finV pos) = finV (V2.neg pos) := rfl
    show G'.inside (rotVec (fin (-θ)) (finV p) + rotVec (fin (-θ)) (V2.neg (finV pos))) = G.inside _
    rw [e, fin_rotVec, fin_rotVec, ← hi]
    rfl
  · show Option.Rel _ ((G'.bbox (fin θ)).map (·.translate (finV pos))) ((G.bbox θ).map (·.translate pos))
    generalize G'.bbox (fin θ) = b' at hb ⊢
    generalize G.bbox θ = b at hb ⊢
    cases hb with
    | none => exact .none
    | some h =>
      refine .some ⟨?_, ?_⟩
      · simp only [Vol.translate, h.1]; rfl
      · simp only [Vol.translate, h.2]; rfl

theorem finObj_cylinder (n n' m : String) (k : MatKind ℝ) (r : ℝ) (pos : V2 ℝ) (θ : ℝ) :
    FinObj ⟨n', .cylinder (fin r), ⟨m, finKind k⟩, finV pos, fin θ⟩ ⟨n, .cylinder r, ⟨m, k⟩, pos, θ⟩ :=
  finObj_of m k pos θ (fun p => by
    simp only [Geometry.cylinder, V2.sqNorm, finV, Num.mul_fin, Num.add_fin, Num.npow_fin, Num.ltb_fin, npow_real, ltb_real]) (.some ⟨rfl, rfl⟩)

theorem fin_sdiv (v : V2 ℝ) : V2.sdiv (finV v) (ofInt 2) = finV (V2.sdiv v (ofInt 2)) := by
  simp only [V2.sdiv, finV, Num.ofInt_fin, Num.div_fin (two_ne_zero (α := ℝ)), Int.cast_ofNat, ofInt_real]

/-- The extent of a rotated box. -/
noncomputable def rotDim (a b : V2 ℝ) (θ : ℝ) : V2 ℝ :=
  ⟨absS (Scalar.cos θ) * (Vol.make a b).dim.x + absS (-(Scalar.sin θ)) * (Vol.make a b).dim.y,
    absS (Scalar.sin θ) * (Vol.make a b).dim.x + absS (Scalar.cos θ) * (Vol.make a b).dim.y⟩

theorem fin_rotatedBox (a b : V2 ℝ) (θ : ℝ) : (rotatedBox (Vol.make (finV a) (finV b)) (fin θ)).a = finV (rotatedBox (Vol.make a b) θ).a ∧
    (rotatedBox (Vol.make (finV a) (finV b)) (fin θ)).b = finV (rotatedBox (Vol.make a b) θ).b := by
  constructor
  · show V2.sdiv (finV (V2.neg (rotDim a b θ))) (ofInt 2) = finV (V2.sdiv (V2.neg (rotDim a b θ)) (ofInt 2))
    exact fin_sdiv _
  · show V2.sdiv (finV (rotDim a b θ)) (ofInt 2) = finV (V2.sdiv (rotDim a b θ) (ofInt 2))
    exact fin_sdiv _

theorem finObj_block (n n' m : String) (k : MatKind ℝ) (dim : V2 ℝ) (pos : V2 ℝ) (θ : ℝ) :
    FinObj ⟨n', .block (finV dim), ⟨m, finKind k⟩, finV pos, fin θ⟩ ⟨n, .block dim, ⟨m, k⟩, pos, θ⟩ :=
  finObj_of m k pos θ (fun p => by
    simp only [Geometry.block, fin_sdiv, V2.sub_x, V2.sub_y, V2.cabs]
    rfl) (by
    simp only [Geometry.block, show ∀ v, V2.neg (finV v) = finV (V2.neg v) from fun _ => rfl, fin_sdiv]
    exact .some (fin_rotatedBox _ _ _))

/-- The axes of an ellipse must not be zero: `ellipse::inside` divides by them. -/
theorem finObj_ellipse (n n' m : String) (k : MatKind ℝ) {rx ry : ℝ} (hx : rx ≠ 0) (hy : ry ≠ 0) (pos : V2 ℝ) (θ : ℝ) :
    FinObj ⟨n', .ellipse (fin rx) (fin ry), ⟨m, finKind k⟩, finV pos, fin θ⟩ ⟨n, .ellipse rx ry, ⟨m, k⟩, pos, θ⟩ :=
  finObj_of m k pos θ (fun p => by
    simp only [Geometry.ellipse, finV, Num.div_fin hx, Num.div_fin hy, Num.npow_fin, Num.add_fin, Num.one_fin, Num.ltb_fin, npow_real, ltb_real])
    (.some (fin_rotatedBox ⟨-rx, -ry⟩ ⟨rx, ry⟩ θ))

theorem finSource_point (n n' : String) (C : Fields) (p : V2 ℝ) {tp' : TimeProfile Xr} {tp : TimeProfile ℝ} (h : FinSignal tp' tp) :
    FinSource ⟨n', .point C (finV p), tp'⟩ ⟨n, .point C p, tp⟩ := ⟨⟨rfl, rfl⟩, h⟩

/-! ## The property -/

/-- The scene `S` in the arithmetic with infinities and NaN. -/
structure FinScene (S : Scene) (objs : List (Object Xr)) (wave : Option (Vol Xr × TimeProfile Xr)) (srcs : List (Source Xr)) : Prop where
  objs : List.Forall₂ FinObj objs S.objs
  wave : Option.Rel FinWave wave S.wave
  srcs : List.Forall₂ FinSource srcs S.srcs
  sound : ∀ o ∈ S.objs, SoundKind o.mat.kind

/-- C79 as stated: in every domain that accepts the scene, with any layer, all fields are numbers after any number of updates. -/
def C79_statement : Prop := ∀ (Lx Ly res : ℝ) (pml : ℤ) (S : Scene) (objs : List (Object Xr)) (wave : Option (Vol Xr × TimeProfile Xr))
  (srcs : List (Source Xr)) (n : ℕ), 0 < res → -1 ≤ pml → (Grid.make Lx Ly res pml).Wide → S.Fits (Grid.make Lx Ly res pml) →
  FinScene S objs wave srcs →
  ∃ c, program (Grid.make (fin Lx) (fin Ly) (fin res) pml) objs wave srcs n = .ok c ∧
    ∀ i j, Node (Grid.make Lx Ly res pml) i j → (c.f.Ez.val i j).IsNum ∧ (c.f.Hx.val i j).IsNum ∧ (c.f.Hy.val i j).IsNum

/-- A scene that fits runs to the end. -/
theorem scene_ok {g : Grid ℝ} (hg : g.Wide) (hl : Lawful g) (hT : g.T = 0 ∨ 2 ≤ g.T) {S : Scene} (f : S.Fits g) (n : ℕ) :
    ∃ c, S.run g n = .ok c := by
  obtain ⟨c0, m0, s0, g0, -⟩ := Core.make_std hg hl hT
  obtain ⟨c1, m1, w1, g1⟩ := insertAll_ok S.objs s0.wf (by rw [g0]; exact fun o ho => safe_of_clear hl (f.clear o ho))
  have end' : ∀ c2 : Core ℝ, c2.WF → c2.g = g → ∃ r, c2.run n S.srcs = .ok r := by
    intro c2 w e
    obtain ⟨c', l', h, -⟩ := Core.run_ok n w (by rw [e]; exact hg) S.srcs (by rw [e]; exact f.srcs)
    exact ⟨_, h⟩
  unfold Scene.run
  rw [m0]; simp only [Except.ok_bind]
  rw [m1]; simp only [Except.ok_bind]
  have eg : c1.g = g := g1.trans g0
  cases e : S.wave with
  | none =>
    obtain ⟨r, hr⟩ := end' c1 w1 eg
    exact ⟨r.1, by simp only [hr]; rfl⟩
  | some w =>
    obtain ⟨a1, a2, a3, a4, a5, a6⟩ := f.wave w e
    obtain ⟨r, hr⟩ := end' (c1.setTfsf w.1 w.2) (Core.setTfsf_ok w1 (by rw [eg]; exact ⟨a1, a2, a3, a4, a5, a6⟩) w.2) eg
    exact ⟨r.1, by simp only [hr]; rfl⟩

theorem program_eq (S : Scene) (g : Grid ℝ) (n : ℕ) : program g S.objs S.wave S.srcs n = S.run g n := by
  unfold program Scene.run
  cases S.wave <;> rfl

/-- C79 for every layer but the one of zero cells: the program ends, and every value of every field is the number that exact arithmetic
computes. Any objects of media in the physical range, any sources, any incident wave, any number of updates. -/
theorem C79_partial {Lx Ly res : ℝ} {pml : ℤ} (hr : 0 < res) (hp : pml = -1 ∨ 1 ≤ pml) (hg : (Grid.make Lx Ly res pml).Wide) {S : Scene}
    (f : S.Fits (Grid.make Lx Ly res pml)) {objs : List (Object Xr)} {wave : Option (Vol Xr × TimeProfile Xr)} {srcs : List (Source Xr)}
    (h : FinScene S objs wave srcs) (n : ℕ) :
    ∃ c' c, program (Grid.make (fin Lx) (fin Ly) (fin res) pml) objs wave srcs n = .ok c' ∧ S.run (Grid.make Lx Ly res pml) n = .ok c ∧
      c'.t = fin c.t ∧ c'.tStep = c.tStep ∧ FinTensor c'.f.Ez c.f.Ez ∧ FinTensor c'.f.Hx c.f.Hx ∧ FinTensor c'.f.Hy c.f.Hy ∧
      FinTensor c'.f.Ca c.f.Ca ∧ FinTensor c'.f.Cb c.f.Cb ∧ FinTensor c'.f.Da c.f.Da ∧ FinTensor c'.f.Db c.f.Db := by
  have hl : Lawful (Grid.make Lx Ly res pml) := lawful_make _ _ _ _ hr
  have hT := make_thick (Lx := Lx) (Ly := Ly) (res := res) hp
  obtain ⟨c, hc⟩ := scene_ok hg hl hT f n
  have hx := hg.nx
  have hy := hg.ny
  obtain ⟨c', hc', hn⟩ := (Num.program_num hl hT (by omega) (by omega) h.objs h.sound h.wave h.srcs n).out c ((program_eq S _ n).trans hc)
  rw [Num.grid_make Lx Ly hr.ne']
  refine ⟨c', c, hc', hc, hn.t, hn.tStep, ?_⟩
  rw [hn.f]
  exact ⟨⟨rfl, rfl, fun _ _ => rfl⟩, ⟨rfl, rfl, fun _ _ => rfl⟩, ⟨rfl, rfl, fun _ _ => rfl⟩, ⟨rfl, rfl, fun _ _ => rfl⟩, ⟨rfl, rfl, fun _ _ => rfl⟩,
    ⟨rfl, rfl, fun _ _ => rfl⟩, ⟨rfl, rfl, fun _ _ => rfl⟩⟩

/-- With `pml_thickness = 0` there is NaN in row `j` after `j` updates, whatever else the program contains: any objects, sources and waves,
of any values. -/
theorem C79_nan {Lx Ly res : Xr} {objs : List (Object Xr)} {wave : Option (Vol Xr × TimeProfile Xr)} {srcs : List (Source Xr)} {n : ℕ}
    {c : Core Xr} (h : program (Grid.make Lx Ly res 0) objs wave srcs n = .ok c) {i j : ℤ} (h1 : 1 ≤ i) (h2 : i < (Grid.make Lx Ly res 0).Nx - 1)
    (h3 : 1 ≤ j) (h4 : j < (Grid.make Lx Ly res 0).Ny - 1) (h5 : j ≤ n) : c.f.Ez.val i j = nan ∧ c.f.Hx.val i j = nan :=
  Nan.program_nan rfl h h1 h2 h3 h4 h5

theorem C79_false : ¬ C79_statement := by
  intro h
  have n1 : (Grid.make 20 20 1 0 : Grid ℝ).Nx = 20 := by simp [Grid.make]
  have n2 : (Grid.make 20 20 1 0 : Grid ℝ).Ny = 20 := by simp [Grid.make]
  have n3 : (Grid.make 20 20 1 0 : Grid ℝ).T = 1 := by simp [Grid.make]
  have e : Grid.make (fin 20) (fin 20) (fin 1) 0 = Num.grid (Grid.make 20 20 1 0) := Num.grid_make 20 20 one_ne_zero 0
  obtain ⟨c, h1, h2⟩ := h 20 20 1 0 ⟨[], [], none⟩ [] none [] 1 one_pos (by norm_num) ⟨by rw [n1, n3]; norm_num, by rw [n2, n3]; norm_num⟩
    ⟨by simp, by simp, by simp, by simp⟩ ⟨.nil, .none, .nil, by simp⟩
  have k := (C79_nan h1 (i := 1) (j := 1) (le_refl _) (by rw [e]; show 1 < (Grid.make 20 20 1 0 : Grid ℝ).Nx - 1; rw [n1]; norm_num) (le_refl _)
    (by rw [e]; show 1 < (Grid.make 20 20 1 0 : Grid ℝ).Ny - 1; rw [n2]; norm_num) (by norm_num)).1
  have := (h2 1 1 (by unfold Node; rw [n1, n2]; norm_num)).1
  rw [k] at this
  exact this

/-! ## Non-trivial cases -/

theorem program_ok {g : Grid Xr} (hg : g.Wide) (n : ℕ) : ∃ c, program g [] none [] n = .ok c := by
  obtain ⟨c0, m0, s0, g0, -⟩ := Core.make_ok (g := g) (by have := hg.nx; omega) (by have := hg.ny; omega)
  obtain ⟨c', l', h, -⟩ := Core.run_ok n s0 (by rw [g0]; exact hg) ([] : List (Source Xr)) (by simp)
  refine ⟨c', ?_⟩
  unfold program
  rw [m0]; simp only [Except.ok_bind]
  show (do let c ← Except.ok c0; let r ← Core.run n c []; pure r.1 : M (Core Xr)) = _
  simp only [Except.ok_bind, h]
  rfl

/-- C79_nan: after 18 updates of an empty domain of 20 by 20 cells every inner node is NaN. -/
example : ∃ c, program (Grid.make (fin 20) (fin 20) (fin 1) 0) [] none [] 18 = .ok c ∧
    ∀ i j, 1 ≤ i → i < 19 → 1 ≤ j → j < 19 → c.f.Ez.val i j = nan := by
  have e : Grid.make (fin 20) (fin 20) (fin 1) 0 = Num.grid (Grid.make 20 20 1 0) := Num.grid_make 20 20 one_ne_zero 0
  have n1 : (Grid.make (fin 20) (fin 20) (fin 1) 0).Nx = 20 := by rw [e]; simp [Num.grid, Grid.make]
  have n2 : (Grid.make (fin 20) (fin 20) (fin 1) 0).Ny = 20 := by rw [e]; simp [Num.grid, Grid.make]
  have n3 : (Grid.make (fin 20) (fin 20) (fin 1) 0).T = 1 := rfl
  obtain ⟨c, hc⟩ := program_ok (g := Grid.make (fin 20) (fin 20) (fin 1) 0) ⟨by rw [n1, n3]; norm_num, by rw [n2, n3]; norm_num⟩ 18
  exact ⟨c, hc, fun i j h1 h2 h3 h4 => (C79_nan hc h1 (by rw [n1]; omega) h3 (by rw [n2]; omega) (by push_cast; omega)).1⟩

/-- C79_partial: a cylinder of glass, a turned block of metal and a pulse. -/
example (n : ℕ) : ∃ c' c, program (Grid.make (fin 20) (fin 20) (fin 1) 2)
      [⟨"c", .cylinder (fin 2), ⟨"glass", finKind (.simple ⟨4, 1, 1 / 5⟩)⟩, finV ⟨8, 12⟩, fin 0⟩,
        ⟨"b", .block (finV ⟨2, 1⟩), ⟨"metal", finKind (.drude ⟨2, [⟨1, 1 / 10⟩]⟩)⟩, finV ⟨12, 9⟩, fin 1⟩] none
      [⟨"p", .point .Ez (finV ⟨10, 6⟩), .gaussian (fin (1 / 10)) (fin (1 / 50)) (fin 20)⟩] n = .ok c' ∧
    (glassMetal ⟨1, 0, 0⟩).run gEx n = .ok c ∧ FinTensor c'.f.Ez c.f.Ez := by
  have x1 : gEx.dx = 1 := by simp [gEx, Grid.make]
  have hS : FinScene (glassMetal ⟨1, 0, 0⟩) [⟨"c", .cylinder (fin 2), ⟨"glass", finKind (.simple ⟨4, 1, 1 / 5⟩)⟩, finV ⟨8, 12⟩, fin 0⟩,
      ⟨"b", .block (finV ⟨2, 1⟩), ⟨"metal", finKind (.drude ⟨2, [⟨1, 1 / 10⟩]⟩)⟩, finV ⟨12, 9⟩, fin 1⟩] none
      [⟨"p", .point .Ez (finV ⟨10, 6⟩), .gaussian (fin (1 / 10)) (fin (1 / 50)) (fin 20)⟩] := by
    have hp : ∀ p : V2 ℝ, (⟨1, 0, 0⟩ : View).point 1 p = p := fun p => by simp [View.point]
    simp only [glassMetal, hp, one_mul, glassOf, metalOf, div_one]
    refine ⟨.cons (finObj_cylinder ..) (.cons (finObj_block ..) .nil), .none, .cons (finSource_point _ _ _ _ (finSignal_gaussian ..)) .nil, ?_⟩
    intro o ho
    simp only [List.mem_cons, List.not_mem_nil, or_false] at ho
    rcases ho with rfl | rfl
    · exact ⟨by norm_num, by norm_num⟩
    · refine ⟨by norm_num, fun p hp => ?_⟩
      simp only [List.mem_singleton] at hp
      subst hp; norm_num
  obtain ⟨c', c, h1, h2, -, -, h3, -⟩ := C79_partial (Lx := 20) (Ly := 20) (res := 1) (pml := 2) one_pos (.inr (by norm_num)) gEx_wide
    (glassMetal_fits (v := ⟨1, 0, 0⟩) gEx_lawful one_pos x1 (le_refl 0) (le_refl 0) (by rw [gEx_Nx]; norm_num) (by rw [gEx_Ny]; norm_num)) hS n
  exact ⟨c', c, h1, h2, h3⟩

end Qbox.Props
