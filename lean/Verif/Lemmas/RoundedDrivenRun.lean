import Verif.Lemmas.RoundedDrivenStep

/-! # Driven runs -/

namespace Qbox
open Scalar Spec Props

theorem rounded_driven {A : Arith} {c : Core (Rnd A)} {med : ℤ → ℤ → Simple (Rnd A)} (hc : RoundClosed c med) {srcs : List (Source (Rnd A))}
    {srcs' : List (Source ℝ)} (same : List.Forall₂ (SameSource c.g) srcs srcs') (few : srcs.length * A.u ≤ 1 / 1000) (hs : ∀ s ∈ srcs, Fits c.g s)
    (hdr : ∀ s ∈ srcs', DrivesIn (exactGrid c.g) (updatedNodes (exactGrid c.g)) s) (t' : ℝ) {d : Flds ℝ}
    (hw : Within (realF c.f d) (updatedNodes (exactGrid c.g))) :
    ∃ c' l, c.update srcs = .ok (c', l) ∧ RoundClosed c' med ∧ c'.g = c.g ∧ c'.t = c.t + c.g.dt ∧ List.Forall₂ SameSrc srcs l ∧
      ∀ d', Within (realF c'.f d') (updatedNodes (exactGrid c.g)) ∧
        ∃ kE kX kY, RoundOff (exactGrid c.g) (fun i j => exactMed (med i j)) (updatedNodes (exactGrid c.g)) (realF c.f d) (realF c'.f d') kE kX kY ∧
          ∀ i j, (updatedNodes (exactGrid c.g)).Mem i j →
            |kE i j - totalContrib (exactGrid c.g) t' srcs' .Ez ⟨i, j⟩| ≤ 24 * ((1 + srcs.length) * A.u) * mag (updatedNodes (exactGrid c.g)) (realF c.f d) i j +
              noise A c.g.dx.val srcs.length (loudness srcs' t') (mishear srcs srcs' (c.t + c.g.dt) t') ∧
            |kX i j - totalContrib (exactGrid c.g) t' srcs' .Hx ⟨i, j⟩| ≤ 8 * ((1 + srcs.length) * A.u) * (|(realF c.f d).Hx.val i j| +
              mag (updatedNodes (exactGrid c.g)) (realF c.f d) i j + mag (updatedNodes (exactGrid c.g)) (realF c.f d) i (j + 1)) +
              noise A c.g.dx.val srcs.length (loudness srcs' t') (mishear srcs srcs' (c.t + c.g.dt) t') ∧
            |kY i j - totalContrib (exactGrid c.g) t' srcs' .Hy ⟨i, j⟩| ≤ 8 * ((1 + srcs.length) * A.u) * (|(realF c.f d).Hy.val i j| +
              mag (updatedNodes (exactGrid c.g)) (realF c.f d) i j + mag (updatedNodes (exactGrid c.g)) (realF c.f d) (i + 1) j) +
              noise A c.g.dx.val srcs.length (loudness srcs' t') (mishear srcs srcs' (c.t + c.g.dt) t') := by
  have hx := hc.dx
  obtain ⟨l, fp, p1, p2, p3, p4, p5⟩ := pulse_near same few (c.t + c.g.dt) t' (f := stepE c) hs (stepE_dims hc.bare)
  obtain ⟨c', u, b, cf, cg, ct⟩ := hc.bare.update_driven p1 p2
  obtain ⟨k1, k2, k3, k4⟩ := p3
  have k1' : fp.Ca = c.f.Ca := k1
  have k2' : fp.Cb = c.f.Cb := k2
  have k3' : fp.Da = c.f.Da := k3
  have k4' : fp.Db = c.f.Db := k4
  refine ⟨c', l, u, ⟨b, by rw [cg]; exact hx, by rw [cg]; exact hc.dt, ?_, by rw [cg]; exact hc.eps, by rw [cg]; exact hc.conduc, by rw [cg]; exact hc.normal⟩,
    cg, ct, p4, fun d' => ?_⟩
  · rw [cg, cf]
    intro i j h
    have := hc.media i j h
    exact ⟨by rw [← this.Ca]; exact congrArg (fun t => t.val i j) k1', by rw [← this.Cb]; exact congrArg (fun t => t.val i j) k2',
      by rw [← this.Da]; exact congrArg (fun t => t.val i j) k3', by rw [← this.Db]; exact congrArg (fun t => t.val i j) k4'⟩
  set R := updatedNodes (exactGrid c.g) with hR
  set s := realF c.f d with hsd
  obtain ⟨x, hxx⟩ : ∃ x, x = c.g.dx.val := ⟨_, rfl⟩
  have x0 : 0 < x := by rw [hxx]; exact hx
  set ℓ := loudness srcs' t' with hℓ
  set δ := mishear srcs srcs' (c.t + c.g.dt) t' with hδ
  have l0 : 0 ≤ ℓ := loudness_nonneg _ _
  have d0 : 0 ≤ δ := mishear_nonneg _ _ _ _
  have n0 := Nat.cast_nonneg (α := ℝ) srcs.length
  have nodrive : ∀ i j, ¬ R.Mem i j → ∀ C, ∀ s ∈ srcs, ¬ Drives c.g s C ⟨i, j⟩ := by
    intro i j hm C s1 h1 hD
    obtain ⟨s2, h2, h3⟩ := forall2_left same s1 h1
    exact hm (hdr s2 h2 C i j ((h3 C i j).mpr hD))
  have aE : ∀ i j, |(fp.Ez.val i j).val - (((stepE c).Ez.val i j).val + totalContrib (exactGrid c.g) t' srcs' .Ez ⟨i, j⟩)| ≤
      2 * (srcs.length * A.u) * (|((stepE c).Ez.val i j).val| + (ℓ + δ)) + 3 * srcs.length * A.tiny + δ := fun i j => (p5 .Ez (by simp [Fields.IsComp]) i j).2
  have aX : ∀ i j, |(fp.Hx.val i j).val - ((c.f.Hx.val i j).val + totalContrib (exactGrid c.g) t' srcs' .Hx ⟨i, j⟩)| ≤
      2 * (srcs.length * A.u) * (|(c.f.Hx.val i j).val| + (ℓ + δ)) + 3 * srcs.length * A.tiny + δ := fun i j => (p5 .Hx (by simp [Fields.IsComp]) i j).2
  have aY : ∀ i j, |(fp.Hy.val i j).val - ((c.f.Hy.val i j).val + totalContrib (exactGrid c.g) t' srcs' .Hy ⟨i, j⟩)| ≤
      2 * (srcs.length * A.u) * (|(c.f.Hy.val i j).val| + (ℓ + δ)) + 3 * srcs.length * A.tiny + δ := fun i j => (p5 .Hy (by simp [Fields.IsComp]) i j).2
  obtain ⟨ez, big⟩ := rounded_ez hc d' hw
  rw [← hxx] at ez big
  have ez' : ∀ i j, R.Mem i j → |((stepE c).Ez.val i j).val - ampereVal x med s i j| ≤ 24 * A.u * mag R s i j + (8 + 5 * x) * A.tiny := ez
  have big' : ∀ i j, |((stepE c).Ez.val i j).val| ≤ 2 * mag R s i j + (8 + 5 * x) * A.tiny := big
  have jl := fun C i j => totalContrib_le (exactGrid c.g) t' C ⟨i, j⟩ srcs'
  have m0 := mag_nonneg R s
  have one : c.g.dx * 1 = c.g.dx := mul_one_rnd _
  have mem1 : ∀ i j, R.Mem i j → (stepP c fp).Hx.val i j = fp.Hx.val i j - c.g.dt * (fp.Ez.val i (j + 1) - fp.Ez.val i j) / c.g.dx ∧
      (stepP c fp).Hy.val i j = fp.Hy.val i j + c.g.dt * (fp.Ez.val (i + 1) j - fp.Ez.val i j) / c.g.dx := by
    intro i j h
    have hm := hc.media i j h
    obtain ⟨a, b⟩ := stepP_values (c := c) (fp := fp) (mem_nodes.mpr h)
    rw [a, b, k3', k4', hm.Da, hm.Db, (hc.bare.scx i).2, (hc.bare.scy j).2, one]
    exact ⟨by rw [show MatKind.Da c.g.dt (.simple (med i j)) = 1 from rfl, one_mul_rnd]; rfl,
      by rw [show MatKind.Da c.g.dt (.simple (med i j)) = 1 from rfl, one_mul_rnd]; rfl⟩
  set s' := realF c'.f d' with hs'
  have eE : ∀ i j, s'.Ez.val i j = (fp.Ez.val i j).val := by
    intro i j
    show (c'.f.Ez.val i j).val = _
    rw [cf]; rfl
  have eX : ∀ i j, s'.Hx.val i j = ((stepP c fp).Hx.val i j).val := by
    intro i j
    show (c'.f.Hx.val i j).val = _
    rw [cf]
  have eY : ∀ i j, s'.Hy.val i j = ((stepP c fp).Hy.val i j).val := by
    intro i j
    show (c'.f.Hy.val i j).val = _
    rw [cf]
  refine ⟨?_, fun i j => open Classical in if R.Mem i j then s'.Ez.val i j - ampereVal x med s i j else 0,
    fun i j => s'.Hx.val i j - (s.Hx.val i j - (s'.Ez.val i (j + 1) - s'.Ez.val i j) / 2),
    fun i j => s'.Hy.val i j - (s.Hy.val i j + (s'.Ez.val (i + 1) j - s'.Ez.val i j) / 2), ⟨?_, ?_, ?_, fun i j h => if_neg h⟩, fun i j h => ⟨?_, ?_, ?_⟩⟩
  · intro i j hm
    have n : (i, j) ∉ rect 1 (c.g.Nx - 1) 1 (c.g.Ny - 1) := fun k => hm (mem_nodes.mp k)
    obtain ⟨w1, w2, w3⟩ := hw i j hm
    obtain ⟨o2, o3⟩ := stepP_out (c := c) (fp := fp) n
    have z1 : fp.Ez.val i j = (stepE c).Ez.val i j := (p5 .Ez (by simp [Fields.IsComp]) i j).1 (nodrive i j hm .Ez)
    have z2 : fp.Hx.val i j = c.f.Hx.val i j := (p5 .Hx (by simp [Fields.IsComp]) i j).1 (nodrive i j hm .Hx)
    have z3 : fp.Hy.val i j = c.f.Hy.val i j := (p5 .Hy (by simp [Fields.IsComp]) i j).1 (nodrive i j hm .Hy)
    rw [eE, eX, eY, o2, o3, z1, z2, z3, stepE_out n]
    exact ⟨w1, w2, w3⟩
  · intro i j h
    rw [if_pos h, sub_sub_cancel]
    unfold ampereVal
    have hd : (exactGrid c.g).dt = x / 2 := by rw [hxx]; rfl
    have hd' : (exactGrid c.g).dx = x := by rw [hxx]; rfl
    rw [hd, hd', (C24_unique (exactMed (med i j)) (x / 2) (by positivity) (by have := hc.eps i j h; exact lt_of_lt_of_le one_pos this) (hc.conduc i j h)).1]
    unfold curlH
    ring
  · intro i j h
    show _ = _ - c.g.dx.val / 2 * (_ / c.g.dx.val) + _
    field_simp
    ring
  · intro i j h
    show _ = _ + c.g.dx.val / 2 * (_ / c.g.dx.val) + _
    field_simp
    ring
  · beta_reduce
    rw [if_pos h, ← hxx, eE]
    exact noise_E x0 n0 few l0 d0 (m0 i j) (ez' i j h) (big' i j) (aE i j)
  · rw [← hxx]
    have q := fl_h A (H := (fp.Hx.val i j).val) (e1 := (fp.Ez.val i (j + 1)).val) (e0 := (fp.Ez.val i j).val) hx (Or.inr rfl)
    rw [← hxx] at q
    have hv : s'.Hx.val i j = A.r ((fp.Hx.val i j).val + -1 * A.r (A.r (x / 2 * A.r ((fp.Ez.val i (j + 1)).val - (fp.Ez.val i j).val)) / x)) := by
      rw [eX, (mem1 i j h).1]
      simp only [sub_rnd, div_rnd, mul_rnd, hc.dt, ← hxx]
      rw [sub_eq_add_neg, ← neg_one_mul]
    rw [← hv] at q
    have fin := noise_H x0 n0 few l0 d0 (m0 i j) (m0 i (j + 1)) (big' i j) (big' i (j + 1)) (jl .Ez i j) (jl .Ez i (j + 1)) (jl .Hx i j) (aE i j) (aE i (j + 1)) (aX i j) q
    refine le_trans (le_of_eq ?_) fin
    congr 1
    beta_reduce
    rw [eE, eE]
    show _ - ((c.f.Hx.val i j).val - _) - _ = _
    ring
  · rw [← hxx]
    have q := fl_h A (H := (fp.Hy.val i j).val) (e1 := (fp.Ez.val (i + 1) j).val) (e0 := (fp.Ez.val i j).val) hx (Or.inl rfl)
    rw [← hxx] at q
    have hv : s'.Hy.val i j = A.r ((fp.Hy.val i j).val + 1 * A.r (A.r (x / 2 * A.r ((fp.Ez.val (i + 1) j).val - (fp.Ez.val i j).val)) / x)) := by
      rw [eY, (mem1 i j h).2]
      simp only [add_rnd, sub_rnd, div_rnd, mul_rnd, hc.dt, ← hxx]
      rw [one_mul]
    rw [← hv] at q
    have fin := noise_H x0 n0 few l0 d0 (m0 i j) (m0 (i + 1) j) (big' i j) (big' (i + 1) j) (jl .Ez i j) (jl .Ez (i + 1) j) (jl .Hy i j) (aE i j) (aE (i + 1) j) (aY i j) q
    refine le_trans (le_of_eq ?_) fin
    congr 1
    beta_reduce
    rw [eE, eE]
    show _ - ((c.f.Hy.val i j).val + _) - _ = _
    ring

/-- What the sources can add to the root of the energy in one step, per unit of signal. -/
noncomputable def push (A : Arith) (g : Grid (Rnd A)) (epsMax : ℝ) : ℝ :=
  Real.sqrt ((epsMax + 1) / 2) * Real.sqrt (area (exactGrid g) (updatedNodes (exactGrid g)))

theorem push_nonneg {A : Arith} (g : Grid (Rnd A)) (epsMax : ℝ) : 0 ≤ push A g epsMax := by unfold push; positivity

/-- The distance after a driven step. -/
theorem twin_driven {A : Arith} {c : Core (Rnd A)} {med : ℤ → ℤ → Simple (Rnd A)} (hc : RoundClosed c med) (hw : c.g.Wide) {e : Core ℝ}
    (he : ExactTwin c.g med e) {epsMax : ℝ} (h0 : 1 ≤ epsMax) (hm : ∀ i j, (updatedNodes (exactGrid c.g)).Mem i j → (med i j).eps.val ≤ epsMax)
    {srcs : List (Source (Rnd A))} {srcs' : List (Source ℝ)} (same : List.Forall₂ (SameSource c.g) srcs srcs') (few : srcs.length * A.u ≤ 1 / 1000)
    (hs : ∀ s ∈ srcs, Fits c.g s) (hs' : ∀ s ∈ srcs', Fits (exactGrid c.g) s)
    (hdr : ∀ s ∈ srcs', DrivesIn (exactGrid c.g) (updatedNodes (exactGrid c.g)) s)
    (hi : Within (realF c.f e.f) (updatedNodes (exactGrid c.g))) {d : Flds ℝ} (md : Mix 1 (-1) e.f (realF c.f e.f) d) :
    ∃ c' e' l l', c.update srcs = .ok (c', l) ∧ e.update srcs' = .ok (e', l') ∧ RoundClosed c' med ∧ c'.g = c.g ∧ ExactTwin c.g med e' ∧
      c'.t = c.t + c.g.dt ∧ e'.t = e.t + c.g.dx.val / 2 ∧ List.Forall₂ SameSrc srcs l ∧ List.Forall₂ SameSrc srcs' l' ∧
      Within (realF c'.f e'.f) (updatedNodes (exactGrid c.g)) ∧
      Real.sqrt (energy (exactGrid c.g) (fun i j => exactMed (med i j)) e'.f (updatedNodes (exactGrid c.g))) ≤
        Real.sqrt (energy (exactGrid c.g) (fun i j => exactMed (med i j)) e.f (updatedNodes (exactGrid c.g))) +
          2 * push A c.g epsMax * loudness srcs' (e.t + c.g.dx.val / 2) ∧
      ∀ d', Mix 1 (-1) e'.f (realF c'.f e'.f) d' →
        Real.sqrt (energy (exactGrid c.g) (fun i j => exactMed (med i j)) d' (updatedNodes (exactGrid c.g))) ≤
          (1 + gain epsMax * ((1 + srcs.length) * A.u)) * Real.sqrt (energy (exactGrid c.g) (fun i j => exactMed (med i j)) d (updatedNodes (exactGrid c.g))) +
          gain epsMax * ((1 + srcs.length) * A.u) * Real.sqrt (energy (exactGrid c.g) (fun i j => exactMed (med i j)) e.f (updatedNodes (exactGrid c.g))) +
          3 * push A c.g epsMax * noise A c.g.dx.val srcs.length (loudness srcs' (e.t + c.g.dx.val / 2))
            (mishear srcs srcs' (c.t + c.g.dt) (e.t + c.g.dx.val / 2)) := by
  have hx := hc.dx
  have hg := exact_lawful hx
  have b1 : (updatedNodes (exactGrid c.g)).l ≤ (updatedNodes (exactGrid c.g)).r + 1 := by
    have := hw.nx; have := hc.bare.thick; simp only [updatedNodes, exactGrid]; omega
  have b2 : (updatedNodes (exactGrid c.g)).b ≤ (updatedNodes (exactGrid c.g)).t + 1 := by
    have := hw.ny; have := hc.bare.thick; simp only [updatedNodes, exactGrid]; omega
  obtain ⟨e', l', v, te, et, sl', L⟩ := he.driven hx hc.eps hc.conduc hs' hdr
  obtain ⟨c', l, u, hc', cg, ct, sl, rest⟩ := rounded_driven hc same few hs hdr (e.t + c.g.dx.val / 2) hi
  obtain ⟨hi', kE, kX, kY, off, bd⟩ := rest e'.f
  have l0 := loudness_nonneg (e.t + c.g.dx.val / 2) srcs'
  have d0 := mishear_nonneg srcs srcs' (c.t + c.g.dt) (e.t + c.g.dx.val / 2)
  have n0 := Nat.cast_nonneg (α := ℝ) srcs.length
  have u0 := A.u_nonneg
  have t0 := A.tiny_nonneg
  set ℓ := loudness srcs' (e.t + c.g.dx.val / 2) with hℓ
  set δ := mishear srcs srcs' (c.t + c.g.dt) (e.t + c.g.dx.val / 2) with hδ
  have q := within_frame hi
  have w0 : 0 ≤ dust A c.g.dx.val := by unfold dust; positivity
  have θ0 : 0 ≤ noise A c.g.dx.val srcs.length ℓ δ := by unfold noise; positivity
  refine ⟨c', e', l, l', u, v, hc', cg, te, ct, et, sl, sl', hi', ?_, fun d' md' => ?_⟩
  · -- the exact run gains at most what the sources give
    set z : Flds ℝ := { e.f with Ez := e.f.Ez.setv fun _ _ => 0, Hx := e.f.Hx.setv fun _ _ => 0, Hy := e.f.Hy.setv fun _ _ => 0 } with hz
    have zE : ∀ i j, z.Ez.val i j = 0 := fun _ _ => rfl
    have zX : ∀ i j, z.Hx.val i j = 0 := fun _ _ => rfl
    have zY : ∀ i j, z.Hy.val i j = 0 := fun _ _ => rfl
    have lz : RoundOff (exactGrid c.g) (fun i j => exactMed (med i j)) (updatedNodes (exactGrid c.g)) z z (fun _ _ => 0) (fun _ _ => 0) (fun _ _ => 0) := by
      refine ⟨fun i j h => ?_, fun i j h => ?_, fun i j h => ?_, fun _ _ _ => rfl⟩
      · unfold ConductiveLaw curlH
        simp only [zE, zX, zY]
        ring
      · simp only [zE, zX]; ring
      · simp only [zE, zY]; ring
    have m1 : Mix 1 (-1) e.f z e.f := ⟨fun i j => by rw [zE]; ring, fun i j => by rw [zX]; ring, fun i j => by rw [zY]; ring⟩
    have m2 : Mix 1 (-1) e'.f z e'.f := ⟨fun i j => by rw [zE]; ring, fun i j => by rw [zX]; ring, fun i j => by rw [zY]; ring⟩
    have k := kicks_step hg b1 b2 (fun i j h => ⟨hc.eps i j h, hm i j h⟩) hc.conduc L lz h0
      (D := 2 * ℓ * Real.sqrt (area (exactGrid c.g) (updatedNodes (exactGrid c.g)))) (by positivity) (by
        have jl := fun C i j => totalContrib_le (exactGrid c.g) (e.t + c.g.dx.val / 2) C ⟨i, j⟩ srcs'
        have sq : ∀ C i j, totalContrib (exactGrid c.g) (e.t + c.g.dx.val / 2) srcs' C ⟨i, j⟩ ^ 2 ≤ ℓ ^ 2 := fun C i j =>
          sq_le_sq' (abs_le.mp (jl C i j)).1 (abs_le.mp (jl C i j)).2
        have s := (updatedNodes (exactGrid c.g)).sum_le (F := fun i j => (0 - totalContrib (exactGrid c.g) (e.t + c.g.dx.val / 2) srcs' .Ez ⟨i, j⟩) ^ 2 +
          (0 - totalContrib (exactGrid c.g) (e.t + c.g.dx.val / 2) srcs' .Hx ⟨i, j⟩) ^ 2 + (0 - totalContrib (exactGrid c.g) (e.t + c.g.dx.val / 2) srcs' .Hy ⟨i, j⟩) ^ 2)
          (G := fun _ _ => 4 * ℓ ^ 2) (fun i j _ => by
            beta_reduce
            have := sq .Ez i j
            have := sq .Hx i j
            have := sq .Hy i j
            have := sq_nonneg ℓ
            simp only [zero_sub, neg_sq]
            linarith)
        rw [sum_const] at s
        have := mul_le_mul_of_nonneg_left s (sq_nonneg (exactGrid c.g).dx)
        refine this.trans (le_of_eq ?_)
        rw [mul_pow, Real.sq_sqrt (area_nonneg _ _)]
        unfold area
        ring) m1 m2 (within_frame he.within) (within_frame te.within)
    refine k.trans (le_of_eq ?_)
    unfold push
    ring
  · have os := off_sum (g := exactGrid c.g) b1 b2 q (u := (1 + srcs.length) * A.u) (by positivity) θ0 (fun i j h => (bd i j h).1) (fun i j h => (bd i j h).2.1)
      (fun i j h => (bd i j h).2.2)
    have k := kicks_step hg b1 b2 (fun i j h => ⟨hc.eps i j h, hm i j h⟩) hc.conduc L off h0 (by positivity) os md md' (md.quiet (within_frame he.within) q)
      (md'.quiet (within_frame te.within) (within_frame hi'))
    have back : Mix 1 (-1) e.f d (realF c.f e.f) := ⟨fun i j => by rw [md.Ez]; ring, fun i j => by rw [md.Hx]; ring, fun i j => by rw [md.Hy]; ring⟩
    have sz := sqrt_size hg b1 b2 (med := fun i j => exactMed (med i j)) hc.eps q
    have qd : FrameQuiet d (updatedNodes (exactGrid c.g)) := md.quiet (within_frame he.within) q
    obtain ⟨nd, mnd⟩ := mix_exists 0 (-1) e.f d
    have mback : Mix 1 1 e.f nd (realF c.f e.f) := ⟨fun i j => by rw [mnd.Ez, back.Ez]; ring, fun i j => by rw [mnd.Hx, back.Hx]; ring, fun i j => by rw [mnd.Hy, back.Hy]; ring⟩
    have tri := energy_triangle hg b1 b2 (med := fun i j => exactMed (med i j)) hc.eps mback (within_frame he.within) (mnd.quiet (within_frame he.within) qd)
    have en : energy (exactGrid c.g) (fun i j => exactMed (med i j)) nd (updatedNodes (exactGrid c.g)) =
        energy (exactGrid c.g) (fun i j => exactMed (med i j)) d (updatedNodes (exactGrid c.g)) := by
      unfold energy hxBack hyBack
      simp only [mnd.Ez, mnd.Hx, mnd.Hy]
      congr 1
      refine Box.sum_congr _ fun i j _ => ?_
      ring
    rw [en] at tri
    set N := Real.sqrt (energy (exactGrid c.g) (fun i j => exactMed (med i j)) e.f (updatedNodes (exactGrid c.g)))
    set D := Real.sqrt (energy (exactGrid c.g) (fun i j => exactMed (med i j)) d (updatedNodes (exactGrid c.g)))
    have s8 := Real.sqrt_nonneg 8
    have sz' : Real.sqrt (size (exactGrid c.g) (realF c.f e.f) (updatedNodes (exactGrid c.g))) ≤ Real.sqrt 8 * (N + D) :=
      sz.trans (mul_le_mul_of_nonneg_left tri s8)
    have p := mul_le_mul_of_nonneg_left (mul_le_mul_of_nonneg_left sz' (by positivity : 0 ≤ 166 * ((1 + srcs.length) * A.u))) (Real.sqrt_nonneg ((epsMax + 1) / 2))
    rw [gain_eq h0] at p
    unfold push
    linarith

theorem SameSource.of_same {A : Arith} {g : Grid (Rnd A)} {s s1 : Source (Rnd A)} {r r1 : Source ℝ} (h : SameSource g s r) (a : SameSrc s s1) (b : SameSrc r r1) :
    SameSource g s1 r1 := by
  intro C i j
  have := h C i j
  unfold Drives at this ⊢
  rw [a.1, b.1]
  exact this

theorem forall2_of_same {A : Arith} {g : Grid (Rnd A)} {s s1 : List (Source (Rnd A))} {r r1 : List (Source ℝ)} (h : List.Forall₂ (SameSource g) s r)
    (a : List.Forall₂ SameSrc s s1) (b : List.Forall₂ SameSrc r r1) : List.Forall₂ (SameSource g) s1 r1 := by
  induction h generalizing s1 r1 with
  | nil => cases a; cases b; exact .nil
  | cons h _ ih =>
    cases a with
    | cons a at' =>
      cases b with
      | cons b bt => exact .cons (SameSource.of_same h a b) (ih at' bt)

theorem fits_of_same {K : Type} [Scalar K] {g : Grid K} {l l1 : List (Source K)} (a : List.Forall₂ SameSrc l l1) (h : ∀ s ∈ l, Fits g s) : ∀ s ∈ l1, Fits g s := by
  intro s1 m1
  obtain ⟨s, m, e, -⟩ := forall2_mem a s1 m1
  have := h s m
  unfold Fits at this ⊢
  rw [e]
  exact this

theorem drivesIn_of_same {g : Grid ℝ} {R : Box} {l l1 : List (Source ℝ)} (a : List.Forall₂ SameSrc l l1) (h : ∀ s ∈ l, DrivesIn g R s) : ∀ s ∈ l1, DrivesIn g R s := by
  intro s1 m1 C i j hd
  obtain ⟨s, m, e, -⟩ := forall2_mem a s1 m1
  refine h s m C i j ?_
  unfold Drives at hd ⊢
  rw [e] at hd
  exact hd

theorem misheard_nonneg {A : Arith} (s : List (Source (Rnd A))) (r : List (Source ℝ)) (dt : Rnd A) (dt' : ℝ) : ∀ (n : ℕ) (t : Rnd A) (t' : ℝ), 0 ≤ misheard s r dt dt' t t' n
  | 0, _, _ => le_rfl
  | n + 1, t, t' => by
    unfold misheard
    have := misheard_nonneg s r dt dt' n (t + dt) (t' + dt')
    have := mishear_nonneg s r (t + dt) (t' + dt')
    positivity

theorem emittedBy_nonneg (srcs : List (Source ℝ)) (t dt : ℝ) (n : ℕ) : 0 ≤ emittedBy srcs t dt n := Finset.sum_nonneg fun _ _ => loudness_nonneg _ _

/-- The distance after any number of driven steps. -/
theorem twin_driven_run {A : Arith} {med : ℤ → ℤ → Simple (Rnd A)} {epsMax : ℝ} (h0 : 1 ≤ epsMax) (K : ℕ) (few : K * A.u ≤ 1 / 1000) :
    ∀ (n : ℕ) {c : Core (Rnd A)} (_ : RoundClosed c med) (_ : c.g.Wide) {e : Core ℝ} (_ : ExactTwin c.g med e)
    (_ : ∀ i j, (updatedNodes (exactGrid c.g)).Mem i j → (med i j).eps.val ≤ epsMax) {srcs : List (Source (Rnd A))} {srcs' : List (Source ℝ)} (_ : srcs.length = K)
    (_ : List.Forall₂ (SameSource c.g) srcs srcs') (_ : ∀ s ∈ srcs, Fits c.g s) (_ : ∀ s ∈ srcs', Fits (exactGrid c.g) s)
    (_ : ∀ s ∈ srcs', DrivesIn (exactGrid c.g) (updatedNodes (exactGrid c.g)) s)
    (_ : Within (realF c.f e.f) (updatedNodes (exactGrid c.g))) {d : Flds ℝ} (_ : Mix 1 (-1) e.f (realF c.f e.f) d),
    ∃ c' e' l l', c.run n srcs = .ok (c', l) ∧ e.run n srcs' = .ok (e', l') ∧ RoundClosed c' med ∧ c'.g = c.g ∧ ExactTwin c.g med e' ∧
      Within (realF c'.f e'.f) (updatedNodes (exactGrid c.g)) ∧
      Real.sqrt (energy (exactGrid c.g) (fun i j => exactMed (med i j)) e'.f (updatedNodes (exactGrid c.g))) ≤
        Real.sqrt (energy (exactGrid c.g) (fun i j => exactMed (med i j)) e.f (updatedNodes (exactGrid c.g))) +
          2 * push A c.g epsMax * emittedBy srcs' e.t (c.g.dx.val / 2) n ∧
      ∀ d', Mix 1 (-1) e'.f (realF c'.f e'.f) d' →
        Real.sqrt (energy (exactGrid c.g) (fun i j => exactMed (med i j)) d' (updatedNodes (exactGrid c.g))) ≤
          (1 + gain epsMax * ((1 + K) * A.u)) ^ n * Real.sqrt (energy (exactGrid c.g) (fun i j => exactMed (med i j)) d (updatedNodes (exactGrid c.g))) +
          ((1 + gain epsMax * ((1 + K) * A.u)) ^ n - 1) * (Real.sqrt (energy (exactGrid c.g) (fun i j => exactMed (med i j)) e.f (updatedNodes (exactGrid c.g))) +
            2 * push A c.g epsMax * emittedBy srcs' e.t (c.g.dx.val / 2) n) +
          (1 + gain epsMax * ((1 + K) * A.u)) ^ n * (3 * push A c.g epsMax * (n * ((1 + K) * dust A c.g.dx.val) +
            13 * ((1 + K) * A.u) * emittedBy srcs' e.t (c.g.dx.val / 2) n + 2 * misheard srcs srcs' c.g.dt (c.g.dx.val / 2) c.t e.t n))
  | 0, c, hc, hw, e, he, hm, srcs, srcs', hK, same, hs, hs', hdr, hi, d, md => ⟨c, e, srcs, srcs', rfl, rfl, hc, rfl, he, hi, by simp [emittedBy], fun d' md' => by
      have : energy (exactGrid c.g) (fun i j => exactMed (med i j)) d' (updatedNodes (exactGrid c.g)) =
          energy (exactGrid c.g) (fun i j => exactMed (med i j)) d (updatedNodes (exactGrid c.g)) := by
        unfold energy hxBack hyBack
        simp only [md.Ez, md.Hx, md.Hy, md'.Ez, md'.Hx, md'.Hy]
      rw [this]; simp [emittedBy, misheard]⟩
  | n + 1, c, hc, hw, e, he, hm, srcs, srcs', hK, same, hs, hs', hdr, hi, d, md => by
    obtain ⟨c1, e1, l1, l1', u, v, hc1, cg, he1, ct, et, sl, sl', hi1, en, st⟩ := twin_driven hc hw he h0 hm same (by rw [hK]; exact few) hs hs' hdr hi md
    obtain ⟨d1, md1⟩ := mix_exists 1 (-1) e1.f (realF c1.f e1.f)
    have k := st d1 md1
    obtain ⟨c2, e2, l2, l2', u2, v2, hc2, cg2, he2, hi2, en2, st2⟩ := twin_driven_run h0 K few n hc1 (by rw [cg]; exact hw) (e := e1) (by rw [cg]; exact he1)
      (by rw [cg]; exact hm) (srcs := l1) (srcs' := l1') (by rw [← sl.length_eq]; exact hK) (by rw [cg]; exact forall2_of_same same sl sl')
      (by rw [cg]; exact fits_of_same sl hs) (by rw [cg]; exact fits_of_same sl' hs') (by rw [cg]; exact drivesIn_of_same sl' hdr) (by rw [cg]; exact hi1) md1
    have em : emittedBy srcs' e.t (c.g.dx.val / 2) (n + 1) = loudness srcs' (e.t + c.g.dx.val / 2) + emittedBy l1' e1.t (c.g.dx.val / 2) n := by
      rw [emittedBy_succ, et]
      unfold emittedBy
      rw [same_loudness sl']
    have mi : misheard srcs srcs' c.g.dt (c.g.dx.val / 2) c.t e.t (n + 1) = mishear srcs srcs' (c.t + c.g.dt) (e.t + c.g.dx.val / 2) +
        misheard l1 l1' c.g.dt (c.g.dx.val / 2) c1.t e1.t n := by
      rw [misheard_same sl sl', ct, et]
      rfl
    rw [cg] at cg2 he2 hi2 en2 st2
    rw [hK] at k
    refine ⟨c2, e2, l2, l2', by unfold Core.run; rw [u]; exact u2, by unfold Core.run; rw [v]; exact v2, hc2, cg2, he2, hi2, ?_, fun d' md' => (st2 d' md').trans ?_⟩
    · rw [em, mul_add]
      linarith
    rw [em, mi]
    have a0 : 0 ≤ gain epsMax * ((1 + K) * A.u) := mul_nonneg (gain_nonneg _) (mul_nonneg (by positivity) A.u_nonneg)
    have V0 := push_nonneg c.g epsMax
    have l0 := loudness_nonneg (e.t + c.g.dx.val / 2) srcs'
    have L0 := emittedBy_nonneg l1' e1.t (c.g.dx.val / 2) n
    have d0 := mishear_nonneg srcs srcs' (c.t + c.g.dt) (e.t + c.g.dx.val / 2)
    have D0 := misheard_nonneg l1 l1' c.g.dt (c.g.dx.val / 2) n c1.t e1.t
    have w0 : 0 ≤ dust A c.g.dx.val := by have := hc.dx; have := A.tiny_nonneg; unfold dust; positivity
    have u0 : 0 ≤ (1 + (K : ℝ)) * A.u := mul_nonneg (by positivity) A.u_nonneg
    unfold noise at k
    obtain ⟨v', hv⟩ : ∃ v', v' = (1 + (K : ℝ)) * A.u := ⟨_, rfl⟩
    obtain ⟨θ, hθ⟩ : ∃ θ, θ = (1 + (K : ℝ)) * dust A c.g.dx.val := ⟨_, rfl⟩
    have θ0 : 0 ≤ θ := by rw [hθ]; positivity
    rw [← hv] at u0 a0 k ⊢
    rw [← hθ] at k ⊢
    obtain ⟨a, ha⟩ : ∃ a, a = gain epsMax * v' := ⟨_, rfl⟩
    rw [← ha] at k a0 ⊢
    set N := Real.sqrt (energy (exactGrid c.g) (fun i j => exactMed (med i j)) e.f (updatedNodes (exactGrid c.g)))
    set N1 := Real.sqrt (energy (exactGrid c.g) (fun i j => exactMed (med i j)) e1.f (updatedNodes (exactGrid c.g)))
    set D := Real.sqrt (energy (exactGrid c.g) (fun i j => exactMed (med i j)) d (updatedNodes (exactGrid c.g)))
    set D1 := Real.sqrt (energy (exactGrid c.g) (fun i j => exactMed (med i j)) d1 (updatedNodes (exactGrid c.g)))
    set V := push A c.g epsMax
    set ℓ := loudness srcs' (e.t + c.g.dx.val / 2)
    set Λ := emittedBy l1' e1.t (c.g.dx.val / 2) n
    set δ := mishear srcs srcs' (c.t + c.g.dt) (e.t + c.g.dx.val / 2)
    set Δ := misheard l1 l1' c.g.dt (c.g.dx.val / 2) c1.t e1.t n
    have p1 : 1 ≤ (1 + a) ^ n := one_le_pow₀ (by linarith)
    obtain ⟨P, hP⟩ : ∃ P, P = (1 + a) ^ n := ⟨_, rfl⟩
    rw [pow_succ, ← hP]
    rw [← hP] at p1
    have x1 := mul_le_mul_of_nonneg_left k (by linarith : 0 ≤ P)
    have x2 := mul_le_mul_of_nonneg_left en (by linarith : 0 ≤ P - 1)
    obtain ⟨W, hW⟩ : ∃ W, W = 3 * V * ((n + 1) * θ + 13 * v' * (ℓ + Λ) + 2 * (δ + Δ)) := ⟨_, rfl⟩
    have W0 : 0 ≤ W := by rw [hW]; positivity
    have x3 : 0 ≤ P * a * W := by positivity
    have x4 : 0 ≤ P * a * (2 * V * (ℓ + Λ)) := by positivity
    have goalW : P * (1 + a) * (3 * V * (((n : ℝ) + 1) * θ + 13 * v' * (ℓ + Λ) + 2 * (δ + Δ))) = P * W + P * a * W := by rw [hW]; ring
    push_cast
    rw [goalW]
    have x5 : P * W = P * (3 * V * (θ + 13 * v' * ℓ + 2 * δ)) + P * (3 * V * (n * θ + 13 * v' * Λ + 2 * Δ)) := by rw [hW]; ring
    rw [x5]
    linarith

end Qbox
