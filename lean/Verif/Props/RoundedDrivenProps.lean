import Verif.Lemmas.RoundedDrivenRun
import Verif.Lemmas.Reach

/-! # Rounding errors: sources (C74) -/

namespace Qbox.Props
open Qbox Scalar Spec

theorem paintAll_time {K : Type} [Scalar K] : ∀ (objs : List (Object K)) {c c' : Core K}, forList objs c (fun o c => c.insertObject o) = .ok c' → c'.t = c.t
  | [], c, c', h => by cases h; rfl
  | o :: l, c, c', h => by
    rw [forList_cons] at h
    obtain ⟨c1, h1, h2⟩ := (Except.bind_ok ..).mp h
    rw [paintAll_time l h2, (insertObject_parts h1).2.2.2.1]

/-- Both programs up to the first update. -/
theorem twin_setup {A : Arith} (g : Grid (Rnd A)) (hw : g.Wide) (hT : g.T = 0) (hx : 0 < g.dx.val) (hdt : g.dt.val = g.dx.val / 2)
    (objs : List (Object (Rnd A))) (objs' : List (Object ℝ)) (same : List.Forall₂ (SameObject g) objs objs') (hs : ∀ o ∈ objs, o.Safe g)
    (hs' : ∀ o ∈ objs', o.Safe (exactGrid g)) (hc : ∀ o ∈ objs, o.Covered g) (hc' : ∀ o ∈ objs', o.Covered (exactGrid g)) (epsMax : ℝ)
    (hv : RoundPassive g.dx.val epsMax (vacuum : Simple (Rnd A))) (hp : ∀ o ∈ objs, ∀ m, o.mat.kind = .simple m → RoundPassive g.dx.val epsMax m)
    (e x y : ℤ → ℤ → Rnd A) (out : ∀ i j, ¬ (updatedNodes (exactGrid g)).Mem i j → (e i j).val = 0 ∧ (x i j).val = 0 ∧ (y i j).val = 0) :
    ∃ c0 c1 r0 r1 med, Core.make g = .ok c0 ∧ forList objs c0 (fun o c => c.insertObject o) = .ok c1 ∧
      Core.make (exactGrid g) = .ok r0 ∧ forList objs' r0 (fun o c => c.insertObject o) = .ok r1 ∧ RoundClosed (setFields c1 e x y) med ∧
      ExactTwin g med (setFields r1 (fun i j => (e i j).val) (fun i j => (x i j).val) (fun i j => (y i j).val)) ∧ (setFields c1 e x y).g = g ∧
      (setFields c1 e x y).t = 0 ∧ (setFields r1 (fun i j => (e i j).val) (fun i j => (x i j).val) (fun i j => (y i j).val)).t = 0 ∧
      ∀ i j, (updatedNodes (exactGrid g)).Mem i j → RoundPassive g.dx.val epsMax (med i j) := by
  have h0 : 1 ≤ epsMax := hv.eps.trans hv.top
  have hwe : (exactGrid g).Wide := ⟨hw.nx, hw.ny⟩
  obtain ⟨c0, k0, b0, g0, -, m0⟩ := Bare.make hw hT
  obtain ⟨r0, k0', b0', g0', -, m0'⟩ := Bare.make hwe hT
  obtain ⟨c1, k1, b1, g1, f1⟩ := Bare.insertAll objs b0 (by rw [g0]; exact hs) (fun o ho => by
    obtain ⟨o', -, so⟩ := forall2_left same o ho
    obtain ⟨m, h, -⟩ := so.medium
    exact ⟨m, h⟩)
  obtain ⟨r1, k1', b1', g1', f1'⟩ := Bare.insertAll objs' b0' (by rw [g0']; exact hs') (fun o ho => by
    obtain ⟨o', -, so⟩ := forall2_right same o ho
    obtain ⟨m, -, h⟩ := so.medium
    exact ⟨_, h⟩)
  have time : ∀ {K : Type} [Scalar K] {g : Grid K} {c : Core K}, g.Wide → Core.make g = .ok c → c.t = 0 := by
    intro K _ g c hw h
    obtain ⟨c', h', -, -, -, t, -⟩ := Core.make_ok (g := g) (by have := hw.nx; omega) (by have := hw.ny; omega)
    rw [h] at h'
    rw [Except.ok.inj h']
    exact t
  rw [g0] at g1 f1
  rw [g0'] at g1' f1'
  have pick : ∀ i j, ∃ m, (updatedNodes (exactGrid g)).Mem i j → RoundPassive g.dx.val epsMax m ∧ HasMedium c1.f (.simple m) g.dt i j ∧
      HasMedium r1.f (.simple (exactMed m)) (exactGrid g).dt i j := by
    intro i j
    by_cases h : (updatedNodes (exactGrid g)).Mem i j
    · have hb := h
      unfold Box.Mem updatedNodes exactGrid at hb
      simp only at hb
      have i0 : 0 ≤ i := by omega
      have i1 : i < g.Nx := by omega
      have j0 : 0 ≤ j := by omega
      have j1 : j < g.Ny := by omega
      have ev : exactMed (vacuum : Simple (Rnd A)) = vacuum := rfl
      obtain ⟨m, p1, p2, p3⟩ := paint_twin (epsMax := epsMax) i0 i1 j0 j1 same hc hc' hp c0.f r0.f vacuum hv (m0 i j i0 i1 j0 j1) (by rw [ev]; exact m0' i j i0 i1 j0 j1)
      exact ⟨m, fun _ => ⟨p1, by rw [f1]; exact p2, by rw [f1']; exact p3⟩⟩
    · exact ⟨vacuum, fun k => absurd k h⟩
  choose med hmed using pick
  have gg : (setFields c1 e x y).g = g := g1
  refine ⟨c0, c1, r0, r1, med, k0, k1, k0', k1', ?_, ?_, gg, (paintAll_time objs k1).trans (time hw k0), (paintAll_time objs' k1').trans (time hwe k0'),
    fun i j h => (hmed i j h).1⟩
  · refine ⟨⟨⟨⟨b1.wf.f.Ez, b1.wf.f.Hx, b1.wf.f.Hy, b1.wf.f.Ca, b1.wf.f.Cb, b1.wf.f.Da, b1.wf.f.Db⟩, b1.wf.sc, b1.wf.pml, b1.wf.prevE, b1.wf.prev2E, b1.wf.hasE, b1.wf.has2E,
      b1.wf.debye, b1.wf.drude, b1.wf.lorentz, b1.wf.tfsf⟩, b1.thick, b1.scx, b1.scy, b1.debye, b1.drude, b1.lorentz, b1.tfsf⟩, ?_, ?_, ?_, ?_, ?_, ?_⟩
    · rw [gg]; exact hx
    · rw [gg]; exact hdt
    · rw [gg]; exact fun i j h => ⟨(hmed i j h).2.1.Ca, (hmed i j h).2.1.Cb, (hmed i j h).2.1.Da, (hmed i j h).2.1.Db⟩
    · rw [gg]; exact fun i j h => (hmed i j h).1.eps
    · rw [gg]; exact fun i j h => (hmed i j h).1.conduc
    · rw [gg]; exact fun i j h => (hmed i j h).1.normal
  · have ge : (setFields r1 (fun i j => (e i j).val) (fun i j => (x i j).val) (fun i j => (y i j).val)).g = exactGrid g := g1'
    refine ⟨⟨⟨⟨b1'.wf.f.Ez, b1'.wf.f.Hx, b1'.wf.f.Hy, b1'.wf.f.Ca, b1'.wf.f.Cb, b1'.wf.f.Da, b1'.wf.f.Db⟩, b1'.wf.sc, b1'.wf.pml, b1'.wf.prevE, b1'.wf.prev2E, b1'.wf.hasE, b1'.wf.has2E,
      b1'.wf.debye, b1'.wf.drude, b1'.wf.lorentz, b1'.wf.tfsf⟩, b1'.thick, b1'.scx, b1'.scy, b1'.debye, b1'.drude, b1'.lorentz, b1'.tfsf⟩, ge, ?_, out⟩
    rw [ge]
    exact fun i j h => ⟨(hmed i j h).2.2.Ca, (hmed i j h).2.2.Cb, (hmed i j h).2.2.Da, (hmed i j h).2.2.Db⟩

/-- **C74** with sources, in any arithmetic with rounding. The same program is run twice, once with rounding and once without: a closed domain is made, any
objects of passive simple media are added, the fields start with the same values, and any sources of any components drive any inner nodes with any signals.
After any number of updates both programs have run without a fault, and the difference of their fields, in the sense of the integral of the square, is at
most a factor close to one minus one times everything that was in the field or was emitted, plus the rounding of the signals and the difference of the signals
of both programs, added up. The clock of the program with rounding is the one that its signals see. Overflow is not represented, nor are the absorbing layer,
incident plane waves and dispersive media. -/
theorem C74_driven_partial {A : Arith} (n : ℕ) (g : Grid (Rnd A)) (hw : g.Wide) (hT : g.T = 0) (hx : 0 < g.dx.val) (hdt : g.dt.val = g.dx.val / 2)
    (objs : List (Object (Rnd A))) (objs' : List (Object ℝ)) (same : List.Forall₂ (SameObject g) objs objs') (hs : ∀ o ∈ objs, o.Safe g)
    (hs' : ∀ o ∈ objs', o.Safe (exactGrid g)) (hc : ∀ o ∈ objs, o.Covered g) (hc' : ∀ o ∈ objs', o.Covered (exactGrid g)) (epsMax : ℝ)
    (hv : RoundPassive g.dx.val epsMax (vacuum : Simple (Rnd A))) (hp : ∀ o ∈ objs, ∀ m, o.mat.kind = .simple m → RoundPassive g.dx.val epsMax m)
    (e x y : ℤ → ℤ → Rnd A) (out : ∀ i j, ¬ (updatedNodes (exactGrid g)).Mem i j → (e i j).val = 0 ∧ (x i j).val = 0 ∧ (y i j).val = 0)
    (srcs : List (Source (Rnd A))) (srcs' : List (Source ℝ)) (sameS : List.Forall₂ (SameSource g) srcs srcs') (few : srcs.length * A.u ≤ 1 / 1000)
    (fits : ∀ s ∈ srcs, Fits g s) (fits' : ∀ s ∈ srcs', Fits (exactGrid g) s) (inner : ∀ s ∈ srcs', DrivesIn (exactGrid g) (updatedNodes (exactGrid g)) s) :
    ∃ c0 c1 c2 r0 r1 r2 l l', Core.make g = .ok c0 ∧ forList objs c0 (fun o c => c.insertObject o) = .ok c1 ∧ (setFields c1 e x y).run n srcs = .ok (c2, l) ∧
      Core.make (exactGrid g) = .ok r0 ∧ forList objs' r0 (fun o c => c.insertObject o) = .ok r1 ∧
      (setFields r1 (fun i j => (e i j).val) (fun i j => (x i j).val) (fun i j => (y i j).val)).run n srcs' = .ok (r2, l') ∧
      Real.sqrt (roundGap g.dx.val c2.f r2.f (updatedNodes (exactGrid g))) ≤ 2 * Real.sqrt (epsMax + 1) *
        (((1 + roundGrowth epsMax * ((1 + srcs.length) * A.u)) ^ n - 1) * (Real.sqrt (roundSize g.dx.val (setFields c1 e x y).f (updatedNodes (exactGrid g))) +
            2 * rootArea g * emittedBy srcs' 0 (g.dx.val / 2) n) +
          (1 + roundGrowth epsMax * ((1 + srcs.length) * A.u)) ^ n * (n * ((1 + srcs.length) * roundFloor g) +
            3 * rootArea g * (13 * ((1 + srcs.length) * A.u) * emittedBy srcs' 0 (g.dx.val / 2) n + 2 * misheard srcs srcs' g.dt (g.dx.val / 2) 0 0 n))) := by
  have h0 : 1 ≤ epsMax := hv.eps.trans hv.top
  obtain ⟨c0, c1, r0, r1, med, k0, k1, k0', k1', RC, tw, gg, tc, tr, hmed⟩ := twin_setup g hw hT hx hdt objs objs' same hs hs' hc hc' epsMax hv hp e x y out
  set s0 := setFields r1 (fun i j => (e i j).val) (fun i j => (x i j).val) (fun i j => (y i j).val) with hs0
  obtain ⟨d, md⟩ := mix_exists 1 (-1) s0.f (realF (setFields c1 e x y).f s0.f)
  obtain ⟨c2, r2, l, l', u2, v2, rc2, gc2, tw2, wi2, -, st2⟩ := twin_driven_run h0 srcs.length few n RC (by rw [gg]; exact hw) (e := s0) (by rw [gg]; exact tw)
    (by rw [gg]; exact fun i j h => (hmed i j h).top) (srcs := srcs) (srcs' := srcs') rfl (by rw [gg]; exact sameS) (by rw [gg]; exact fits) (by rw [gg]; exact fits')
    (by rw [gg]; exact inner) (by rw [gg]; exact out) md
  rw [gg] at wi2 st2 tw2
  obtain ⟨d2, md2⟩ := mix_exists 1 (-1) r2.f (realF c2.f r2.f)
  have k := st2 d2 md2
  have hg := exact_lawful hx
  have bx1 : (updatedNodes (exactGrid g)).l ≤ (updatedNodes (exactGrid g)).r + 1 := by
    have := hw.nx; simp only [updatedNodes, exactGrid]; omega
  have bx2 : (updatedNodes (exactGrid g)).b ≤ (updatedNodes (exactGrid g)).t + 1 := by
    have := hw.ny; simp only [updatedNodes, exactGrid]; omega
  have ed : energy (exactGrid g) (fun i j => exactMed (med i j)) d (updatedNodes (exactGrid g)) = 0 := by
    have z : ∀ i j, d.Ez.val i j = 0 ∧ d.Hx.val i j = 0 ∧ d.Hy.val i j = 0 := by
      intro i j
      have a1 : s0.f.Ez.val i j = (e i j).val := rfl
      have a2 : s0.f.Hx.val i j = (x i j).val := rfl
      have a3 : s0.f.Hy.val i j = (y i j).val := rfl
      have b1 : (realF (setFields c1 e x y).f s0.f).Ez.val i j = (e i j).val := rfl
      have b2 : (realF (setFields c1 e x y).f s0.f).Hx.val i j = (x i j).val := rfl
      have b3 : (realF (setFields c1 e x y).f s0.f).Hy.val i j = (y i j).val := rfl
      rw [md.Ez, md.Hx, md.Hy, a1, a2, a3, b1, b2, b3]
      refine ⟨by ring, by ring, by ring⟩
    have zE := fun i j => (z i j).1
    have zX := fun i j => (z i j).2.1
    have zY := fun i j => (z i j).2.2
    unfold energy
    simp [zE, zX, zY, Box.sum]
  rw [ed, Real.sqrt_zero, mul_zero, zero_add, tc, tr] at k
  have es := energy_le_size hg bx1 bx2 (med := fun i j => exactMed (med i j)) h0 (fun i j h => (hmed i j h).top) (f := s0.f) out
  have sz0 : size (exactGrid g) s0.f (updatedNodes (exactGrid g)) = roundSize g.dx.val (setFields c1 e x y).f (updatedNodes (exactGrid g)) := rfl
  rw [sz0] at es
  have qd := md2.quiet (within_frame tw2.within) (within_frame wi2)
  have sq := sqrt_size hg bx1 bx2 (med := fun i j => exactMed (med i j)) (fun i j h => (hmed i j h).eps) qd
  have sg : size (exactGrid g) d2 (updatedNodes (exactGrid g)) = roundGap g.dx.val c2.f r2.f (updatedNodes (exactGrid g)) := by
    unfold size roundGap
    congr 1
    refine Box.sum_congr _ fun i j _ => ?_
    have b1 : (realF c2.f r2.f).Ez.val i j = (c2.f.Ez.val i j).val := rfl
    have b2 : (realF c2.f r2.f).Hx.val i j = (c2.f.Hx.val i j).val := rfl
    have b3 : (realF c2.f r2.f).Hy.val i j = (c2.f.Hy.val i j).val := rfl
    rw [md2.Ez, md2.Hx, md2.Hy, b1, b2, b3]
    ring
  rw [sg] at sq
  refine ⟨c0, c1, c2, r0, r1, r2, l, l', k0, k1, u2, k0', k1', v2, sq.trans ?_⟩
  have L0 := emittedBy_nonneg srcs' 0 (g.dx.val / 2) n
  set P := (1 + roundGrowth epsMax * ((1 + srcs.length) * A.u)) ^ n with hP
  have hP' : (1 + gain epsMax * ((1 + srcs.length) * A.u)) ^ n = P := rfl
  rw [hP'] at k
  have P1 : 1 ≤ P := one_le_pow₀ (by
    have := mul_nonneg (gain_nonneg epsMax) (mul_nonneg (by positivity : 0 ≤ 1 + (srcs.length : ℝ)) A.u_nonneg)
    unfold gain at this; unfold roundGrowth; linarith)
  set S := Real.sqrt (roundSize g.dx.val (setFields c1 e x y).f (updatedNodes (exactGrid g))) with hS
  set N := Real.sqrt (energy (exactGrid g) (fun i j => exactMed (med i j)) s0.f (updatedNodes (exactGrid g))) with hN
  have NS : N ≤ Real.sqrt ((epsMax + 1) / 2) * S := by
    rw [hN, hS, ← Real.sqrt_mul (by linarith)]
    exact Real.sqrt_le_sqrt es
  have s8 := Real.sqrt_nonneg 8
  have two : Real.sqrt 8 * Real.sqrt ((epsMax + 1) / 2) = 2 * Real.sqrt (epsMax + 1) := by
    rw [← Real.sqrt_mul (by norm_num)]
    rw [show 8 * ((epsMax + 1) / 2) = 2 ^ 2 * (epsMax + 1) by ring, Real.sqrt_mul (by norm_num), Real.sqrt_sq (by norm_num)]
  have pu : push A g epsMax = Real.sqrt ((epsMax + 1) / 2) * rootArea g := rfl
  have fl : roundFloor g = 3 * dust A g.dx.val * rootArea g := rfl
  rw [pu] at k
  rw [fl]
  set q := Real.sqrt ((epsMax + 1) / 2)
  set Λ := emittedBy srcs' 0 (g.dx.val / 2) n
  set Δ := misheard srcs srcs' g.dt (g.dx.val / 2) 0 0 n
  set D := Real.sqrt (energy (exactGrid g) (fun i j => exactMed (med i j)) d2 (updatedNodes (exactGrid g))) with hD
  have a := mul_le_mul_of_nonneg_left k s8
  have b := mul_le_mul_of_nonneg_left (mul_le_mul_of_nonneg_left NS (by linarith : 0 ≤ P - 1)) s8
  rw [← two]
  linarith

/-- **C74** with sources, as long as the number of updates times the number of sources is far below the number of digits. -/
theorem C74_driven_linear_partial {A : Arith} (n : ℕ) (g : Grid (Rnd A)) (hw : g.Wide) (hT : g.T = 0) (hx : 0 < g.dx.val) (hdt : g.dt.val = g.dx.val / 2)
    (objs : List (Object (Rnd A))) (objs' : List (Object ℝ)) (same : List.Forall₂ (SameObject g) objs objs') (hs : ∀ o ∈ objs, o.Safe g)
    (hs' : ∀ o ∈ objs', o.Safe (exactGrid g)) (hc : ∀ o ∈ objs, o.Covered g) (hc' : ∀ o ∈ objs', o.Covered (exactGrid g)) (epsMax : ℝ)
    (hv : RoundPassive g.dx.val epsMax (vacuum : Simple (Rnd A))) (hp : ∀ o ∈ objs, ∀ m, o.mat.kind = .simple m → RoundPassive g.dx.val epsMax m)
    (e x y : ℤ → ℤ → Rnd A) (out : ∀ i j, ¬ (updatedNodes (exactGrid g)).Mem i j → (e i j).val = 0 ∧ (x i j).val = 0 ∧ (y i j).val = 0)
    (srcs : List (Source (Rnd A))) (srcs' : List (Source ℝ)) (sameS : List.Forall₂ (SameSource g) srcs srcs')
    (fits : ∀ s ∈ srcs, Fits g s) (fits' : ∀ s ∈ srcs', Fits (exactGrid g) s) (inner : ∀ s ∈ srcs', DrivesIn (exactGrid g) (updatedNodes (exactGrid g)) s)
    (few : srcs.length * A.u ≤ 1 / 1000) (short : roundGrowth epsMax * ((1 + srcs.length) * A.u) * n ≤ 1) :
    ∃ c0 c1 c2 r0 r1 r2 l l', Core.make g = .ok c0 ∧ forList objs c0 (fun o c => c.insertObject o) = .ok c1 ∧ (setFields c1 e x y).run n srcs = .ok (c2, l) ∧
      Core.make (exactGrid g) = .ok r0 ∧ forList objs' r0 (fun o c => c.insertObject o) = .ok r1 ∧
      (setFields r1 (fun i j => (e i j).val) (fun i j => (x i j).val) (fun i j => (y i j).val)).run n srcs' = .ok (r2, l') ∧
      Real.sqrt (roundGap g.dx.val c2.f r2.f (updatedNodes (exactGrid g))) ≤ 2 * Real.sqrt (epsMax + 1) * ((1 + srcs.length) * A.u) *
          (2 * roundGrowth epsMax * n * (Real.sqrt (roundSize g.dx.val (setFields c1 e x y).f (updatedNodes (exactGrid g))) +
            2 * rootArea g * emittedBy srcs' 0 (g.dx.val / 2) n) + 117 * rootArea g * emittedBy srcs' 0 (g.dx.val / 2) n) +
        6 * Real.sqrt (epsMax + 1) * (n * ((1 + srcs.length) * roundFloor g) + 6 * rootArea g * misheard srcs srcs' g.dt (g.dx.val / 2) 0 0 n) := by
  obtain ⟨c0, c1, c2, r0, r1, r2, l, l', k1, k2, k3, k4, k5, k6, k7⟩ := C74_driven_partial n g hw hT hx hdt objs objs' same hs hs' hc hc' epsMax hv hp e x y out
    srcs srcs' sameS few fits fits' inner
  refine ⟨c0, c1, c2, r0, r1, r2, l, l', k1, k2, k3, k4, k5, k6, k7.trans ?_⟩
  have a0 : 0 ≤ roundGrowth epsMax * ((1 + srcs.length) * A.u) := mul_nonneg (gain_nonneg epsMax) (mul_nonneg (by positivity) A.u_nonneg)
  obtain ⟨b1, b2⟩ := pow_bounds a0 short
  have f0 : 0 ≤ roundFloor g := by have := A.tiny_nonneg; unfold roundFloor; positivity
  have u0 := A.u_nonneg
  have r0' : 0 ≤ rootArea g := Real.sqrt_nonneg _
  have L0 := emittedBy_nonneg srcs' 0 (g.dx.val / 2) n
  have D0 := misheard_nonneg srcs srcs' g.dt (g.dx.val / 2) n 0 0
  set S := Real.sqrt (roundSize g.dx.val (setFields c1 e x y).f (updatedNodes (exactGrid g)))
  have S0 : 0 ≤ S := Real.sqrt_nonneg _
  set Λ := emittedBy srcs' 0 (g.dx.val / 2) n
  set Δ := misheard srcs srcs' g.dt (g.dx.val / 2) 0 0 n
  have q0 : 0 ≤ 2 * Real.sqrt (epsMax + 1) := by positivity
  have m1 := mul_le_mul_of_nonneg_right b1 (by positivity : 0 ≤ S + 2 * rootArea g * Λ)
  have m2 := mul_le_mul_of_nonneg_right b2 (by positivity : 0 ≤ n * ((1 + srcs.length) * roundFloor g) + 3 * rootArea g * (13 * ((1 + srcs.length) * A.u) * Λ + 2 * Δ))
  refine (mul_le_mul_of_nonneg_left (add_le_add m1 m2) q0).trans (le_of_eq (by ring))

end Qbox.Props
