import Verif.Lemmas.RoundedRun
import Verif.Spec.RoundSpec

/-! # Rounding errors: the run of a closed domain (C74) -/

namespace Qbox.Props
open Qbox Scalar Spec

theorem energy_le_size {g : Grid ℝ} (hg : Lawful g) {R : Box} (h1 : R.l ≤ R.r + 1) (h2 : R.b ≤ R.t + 1) {med : ℤ → ℤ → Simple ℝ} {epsMax : ℝ} (h0 : 1 ≤ epsMax)
    (he : ∀ i j, R.Mem i j → (med i j).eps ≤ epsMax) {f : Flds ℝ} (hw : Within f R) : energy g med f R ≤ (epsMax + 1) / 2 * size g f R := by
  have hx := hg.dx
  have s1 := sum_shift_x h1 (F := fun i j => f.Ez.val i j ^ 2) (fun _ _ => sq_nonneg _) (fun i j h => by rw [(hw i j h).1]; norm_num)
  have s2 := sum_shift_y h2 (F := fun i j => f.Ez.val i j ^ 2) (fun _ _ => sq_nonneg _) (fun i j h => by rw [(hw i j h).1]; norm_num)
  have e : R.sum (fun i j => ((med i j).eps * f.Ez.val i j ^ 2 + f.Hx.val i j * hxBack g f i j + f.Hy.val i j * hyBack g f i j) / 2) ≤
      R.sum fun i j => ((((epsMax / 2 + 1 / 4) * f.Ez.val i j ^ 2 + (3 / 4) * f.Hx.val i j ^ 2) + (3 / 4) * f.Hy.val i j ^ 2) + (1 / 8) * f.Ez.val i (j + 1) ^ 2) +
        (1 / 8) * f.Ez.val (i + 1) j ^ 2 := by
    refine R.sum_le fun i j h => ?_
    have q : ∀ z : ℝ, g.dt * (z / g.dx) = z / 2 := fun z => by rw [hg.dt]; field_simp
    unfold hxBack hyBack
    rw [q, q]
    have t1 := mul_le_mul_of_nonneg_right (he i j h) (sq_nonneg (f.Ez.val i j))
    nlinarith [sq_nonneg (f.Hx.val i j - (f.Ez.val i (j + 1) - f.Ez.val i j) / 2), sq_nonneg (f.Ez.val i (j + 1) + f.Ez.val i j),
      sq_nonneg (f.Hy.val i j + (f.Ez.val (i + 1) j - f.Ez.val i j) / 2), sq_nonneg (f.Ez.val (i + 1) j + f.Ez.val i j)]
  rw [Box.sum_add, Box.sum_add, Box.sum_add, Box.sum_add, Box.sum_mul, Box.sum_mul, Box.sum_mul, Box.sum_mul, Box.sum_mul] at e
  beta_reduce at s1 s2
  have zX := R.sum_nonneg (F := fun i j => f.Hx.val i j ^ 2) fun _ _ _ => sq_nonneg _
  have zY := R.sum_nonneg (F := fun i j => f.Hy.val i j ^ 2) fun _ _ _ => sq_nonneg _
  have p1 := mul_le_mul_of_nonneg_right h0 zX
  have p2 := mul_le_mul_of_nonneg_right h0 zY
  unfold energy size
  rw [Box.sum_add, Box.sum_add]
  have k : R.sum (fun i j => ((med i j).eps * f.Ez.val i j ^ 2 + f.Hx.val i j * hxBack g f i j + f.Hy.val i j * hyBack g f i j) / 2) ≤
      (epsMax + 1) / 2 * ((R.sum fun i j => f.Ez.val i j ^ 2) + (R.sum fun i j => f.Hx.val i j ^ 2) + R.sum fun i j => f.Hy.val i j ^ 2) := by linarith
  have := mul_le_mul_of_nonneg_left k (sq_nonneg g.dx)
  linarith

/-- Painting the same objects in both arithmetics leaves corresponding media. -/
theorem paint_twin {A : Arith} {g : Grid (Rnd A)} {epsMax : ℝ} {i j : ℤ} (i0 : 0 ≤ i) (i1 : i < g.Nx) (j0 : 0 ≤ j) (j1 : j < g.Ny) :
    ∀ {objs : List (Object (Rnd A))} {objs' : List (Object ℝ)} (_ : List.Forall₂ (SameObject g) objs objs') (_ : ∀ o ∈ objs, o.Covered g)
      (_ : ∀ o ∈ objs', o.Covered (exactGrid g)) (_ : ∀ o ∈ objs, ∀ m, o.mat.kind = .simple m → RoundPassive g.dx.val epsMax m) (f : Flds (Rnd A)) (f' : Flds ℝ) (m : Simple (Rnd A))
      (_ : RoundPassive g.dx.val epsMax m) (_ : HasMedium f (.simple m) g.dt i j) (_ : HasMedium f' (.simple (exactMed m)) (exactGrid g).dt i j),
      ∃ m, RoundPassive g.dx.val epsMax m ∧ HasMedium (paintAll g objs f) (.simple m) g.dt i j ∧
        HasMedium (paintAll (exactGrid g) objs' f') (.simple (exactMed m)) (exactGrid g).dt i j
  | _, _, .nil, _, _, _, f, f', m, p, h, h' => ⟨m, p, h, h'⟩
  | _, _, .cons (a := o) (b := o') (l₁ := l) (l₂ := l') so t, hc, hc', hp, f, f', m, p, h, h' => by
    have rest := paint_twin i0 i1 j0 j1 t (fun o ho => hc o (by simp [ho])) (fun o ho => hc' o (by simp [ho])) (fun o ho => hp o (by simp [ho]))
      (f.paint o.mat.kind g.dt (fun x y => o.inside (g.toReal ⟨x, y⟩)) (scan g o))
      (f'.paint o'.mat.kind (exactGrid g).dt (fun x y => o'.inside ((exactGrid g).toReal ⟨x, y⟩)) (scan (exactGrid g) o'))
    have same := so.nodes i j i0 i1 j0 j1
    obtain ⟨n, k, k'⟩ := so.medium
    by_cases hi : o.inside (g.toReal ⟨i, j⟩) = true
    · have hi' : o'.inside ((exactGrid g).toReal ⟨i, j⟩) = true := same.trans hi
      refine rest n (hp o (by simp) n k) ?_ ?_
      · have := Flds.paint_hit (f := f) (k := o.mat.kind) (dt := g.dt) (q := fun x y => o.inside (g.toReal ⟨x, y⟩)) (hc o (by simp) i j i0 i1 j0 j1 hi) hi
        rw [k] at this ⊢
        exact this
      · have := Flds.paint_hit (f := f') (k := o'.mat.kind) (dt := (exactGrid g).dt) (q := fun x y => o'.inside ((exactGrid g).toReal ⟨x, y⟩))
          (hc' o' (by simp) i j i0 i1 j0 j1 hi') hi'
        rw [k'] at this ⊢
        exact this
    · rw [Bool.not_eq_true] at hi
      have hi' : o'.inside ((exactGrid g).toReal ⟨i, j⟩) = false := same.trans hi
      refine rest m p ?_ ?_
      · obtain ⟨a1, a2, a3, a4⟩ := Flds.paint_miss (f := f) (k := o.mat.kind) (dt := g.dt) (q := fun x y => o.inside (g.toReal ⟨x, y⟩)) (D := scan g o) hi
        exact ⟨a1.trans h.Ca, a2.trans h.Cb, a3.trans h.Da, a4.trans h.Db⟩
      · obtain ⟨a1, a2, a3, a4⟩ := Flds.paint_miss (f := f') (k := o'.mat.kind) (dt := (exactGrid g).dt) (q := fun x y => o'.inside ((exactGrid g).toReal ⟨x, y⟩))
          (D := scan (exactGrid g) o') hi'
        exact ⟨a1.trans h'.Ca, a2.trans h'.Cb, a3.trans h'.Da, a4.trans h'.Db⟩

theorem forall2_right {α β : Type} {P : α → β → Prop} : ∀ {l : List α} {l' : List β}, List.Forall₂ P l l' → ∀ b ∈ l', ∃ a ∈ l, P a b
  | _, _, .nil, _, h => by simp at h
  | _, _, .cons h t, b, hb => by
    rcases List.mem_cons.mp hb with rfl | hb
    · exact ⟨_, by simp, h⟩
    · obtain ⟨a, ha, hp⟩ := forall2_right t b hb
      exact ⟨a, by simp [ha], hp⟩

theorem forall2_left {α β : Type} {P : α → β → Prop} : ∀ {l : List α} {l' : List β}, List.Forall₂ P l l' → ∀ a ∈ l, ∃ b ∈ l', P a b
  | _, _, .nil, _, h => by simp at h
  | _, _, .cons h t, a, ha => by
    rcases List.mem_cons.mp ha with rfl | ha
    · exact ⟨_, by simp, h⟩
    · obtain ⟨b, hb, hp⟩ := forall2_left t a ha
      exact ⟨b, by simp [hb], hp⟩

/-- **C74**, in any arithmetic with rounding. The same program is run twice, once with rounding and once without: a closed domain is made, any objects of
passive simple media are added and the fields start with the same values. After any number of updates both programs have run without a fault, and the
difference of their fields, in the sense of the integral of the square, is at most a factor close to one minus one times the field at the start. Overflow is not represented, nor are sources, the absorbing layer and dispersive media. -/
theorem C74_rounding_partial {A : Arith} (n : ℕ) (g : Grid (Rnd A)) (hw : g.Wide) (hT : g.T = 0) (hx : 0 < g.dx.val) (hdt : g.dt.val = g.dx.val / 2)
    (objs : List (Object (Rnd A))) (objs' : List (Object ℝ)) (same : List.Forall₂ (SameObject g) objs objs') (hs : ∀ o ∈ objs, o.Safe g)
    (hs' : ∀ o ∈ objs', o.Safe (exactGrid g)) (hc : ∀ o ∈ objs, o.Covered g) (hc' : ∀ o ∈ objs', o.Covered (exactGrid g)) (epsMax : ℝ)
    (hv : RoundPassive g.dx.val epsMax (vacuum : Simple (Rnd A))) (hp : ∀ o ∈ objs, ∀ m, o.mat.kind = .simple m → RoundPassive g.dx.val epsMax m)
    (e x y : ℤ → ℤ → Rnd A) (out : ∀ i j, ¬ (updatedNodes (exactGrid g)).Mem i j → (e i j).val = 0 ∧ (x i j).val = 0 ∧ (y i j).val = 0) :
    ∃ c0 c1 c2 r0 r1 r2, Core.make g = .ok c0 ∧ forList objs c0 (fun o c => c.insertObject o) = .ok c1 ∧ (setFields c1 e x y).run n [] = .ok (c2, []) ∧
      Core.make (exactGrid g) = .ok r0 ∧ forList objs' r0 (fun o c => c.insertObject o) = .ok r1 ∧
      (setFields r1 (fun i j => (e i j).val) (fun i j => (x i j).val) (fun i j => (y i j).val)).run n [] = .ok (r2, []) ∧
      Real.sqrt (roundGap g.dx.val c2.f r2.f (updatedNodes (exactGrid g))) ≤ 2 * Real.sqrt (epsMax + 1) *
        (((1 + roundGrowth epsMax * A.u) ^ n - 1) * Real.sqrt (roundSize g.dx.val (setFields c1 e x y).f (updatedNodes (exactGrid g))) +
          n * (1 + roundGrowth epsMax * A.u) ^ n * roundFloor g) ∧
      Real.sqrt (roundSize g.dx.val c2.f (updatedNodes (exactGrid g))) ≤ 2 * Real.sqrt (epsMax + 1) *
        ((1 + roundGrowth epsMax * A.u) ^ n * Real.sqrt (roundSize g.dx.val (setFields c1 e x y).f (updatedNodes (exactGrid g))) +
          n * (1 + roundGrowth epsMax * A.u) ^ n * roundFloor g) := by
  have h0 : 1 ≤ epsMax := hv.eps.trans hv.top
  have hwe : (exactGrid g).Wide := ⟨hw.nx, hw.ny⟩
  obtain ⟨c0, k0, b0, g0, -, m0⟩ := Bare.make hw hT
  obtain ⟨r0, k0', b0', g0', -, m0'⟩ := Bare.make hwe hT
  obtain ⟨c1, k1, b1, g1, f1⟩ := Bare.insertAll objs b0 (by rw [g0]; exact hs) (fun o ho => by
    obtain ⟨o', -, so⟩ := forall2_left same o ho
    obtain ⟨m, h, -⟩ := so.medium
    exact ⟨m, h⟩)
  obtain ⟨r1, k1', b1', g1', f1'⟩ := Bare.insertAll objs' b0' (by rw [g0']; exact hs') (fun o ho => by
    obtain ⟨o', -, so⟩ := forall2_right same o ho
    obtain ⟨m, -, h⟩ := so.medium
    exact ⟨_, h⟩)
  rw [g0] at g1 f1
  rw [g0'] at g1' f1'
  have pick : ∀ i j, ∃ m, (updatedNodes (exactGrid g)).Mem i j → RoundPassive g.dx.val epsMax m ∧ HasMedium c1.f (.simple m) g.dt i j ∧
      HasMedium r1.f (.simple (exactMed m)) (exactGrid g).dt i j := by
    intro i j
    by_cases h : (updatedNodes (exactGrid g)).Mem i j
    · have hb := h
      unfold Box.Mem updatedNodes exactGrid at hb
      simp only at hb
      have i0 : 0 ≤ i := by omega
      have i1 : i < g.Nx := by omega
      have j0 : 0 ≤ j := by omega
      have j1 : j < g.Ny := by omega
      have ev : exactMed (vacuum : Simple (Rnd A)) = vacuum := rfl
      obtain ⟨m, p1, p2, p3⟩ := paint_twin (epsMax := epsMax) i0 i1 j0 j1 same hc hc' hp c0.f r0.f vacuum hv (m0 i j i0 i1 j0 j1) (by rw [ev]; exact m0' i j i0 i1 j0 j1)
      exact ⟨m, fun _ => ⟨p1, by rw [f1]; exact p2, by rw [f1']; exact p3⟩⟩
    · exact ⟨vacuum, fun k => absurd k h⟩
  choose med hmed using pick
  have RC : RoundClosed (setFields c1 e x y) med := by
    have gg : (setFields c1 e x y).g = g := g1
    refine ⟨⟨⟨⟨b1.wf.f.Ez, b1.wf.f.Hx, b1.wf.f.Hy, b1.wf.f.Ca, b1.wf.f.Cb, b1.wf.f.Da, b1.wf.f.Db⟩, b1.wf.sc, b1.wf.pml, b1.wf.prevE, b1.wf.prev2E, b1.wf.hasE, b1.wf.has2E,
      b1.wf.debye, b1.wf.drude, b1.wf.lorentz, b1.wf.tfsf⟩, b1.thick, b1.scx, b1.scy, b1.debye, b1.drude, b1.lorentz, b1.tfsf⟩, ?_, ?_, ?_, ?_, ?_, ?_⟩
    · rw [gg]; exact hx
    · rw [gg]; exact hdt
    · rw [gg]; exact fun i j h => ⟨(hmed i j h).2.1.Ca, (hmed i j h).2.1.Cb, (hmed i j h).2.1.Da, (hmed i j h).2.1.Db⟩
    · rw [gg]; exact fun i j h => (hmed i j h).1.eps
    · rw [gg]; exact fun i j h => (hmed i j h).1.conduc
    · rw [gg]; exact fun i j h => (hmed i j h).1.normal
  have gg : (setFields c1 e x y).g = g := g1
  set s0 := setFields r1 (fun i j => (e i j).val) (fun i j => (x i j).val) (fun i j => (y i j).val) with hs0
  have tw : ExactTwin g med s0 := by
    have ge : s0.g = exactGrid g := g1'
    refine ⟨⟨⟨⟨b1'.wf.f.Ez, b1'.wf.f.Hx, b1'.wf.f.Hy, b1'.wf.f.Ca, b1'.wf.f.Cb, b1'.wf.f.Da, b1'.wf.f.Db⟩, b1'.wf.sc, b1'.wf.pml, b1'.wf.prevE, b1'.wf.prev2E, b1'.wf.hasE, b1'.wf.has2E,
      b1'.wf.debye, b1'.wf.drude, b1'.wf.lorentz, b1'.wf.tfsf⟩, b1'.thick, b1'.scx, b1'.scy, b1'.debye, b1'.drude, b1'.lorentz, b1'.tfsf⟩, ge, ?_, out⟩
    rw [ge]
    exact fun i j h => ⟨(hmed i j h).2.2.Ca, (hmed i j h).2.2.Cb, (hmed i j h).2.2.Da, (hmed i j h).2.2.Db⟩
  obtain ⟨d, md⟩ := mix_exists 1 (-1) s0.f (realF (setFields c1 e x y).f s0.f)
  obtain ⟨c2, r2, u2, v2, rc2, gc2, tw2, wi2, en2, st2⟩ := twin_run h0 n RC (by rw [gg]; exact hw) (e := s0) (by rw [gg]; exact tw)
    (by rw [gg]; exact fun i j h => (hmed i j h).1.top) (by rw [gg]; exact out) md
  rw [gg] at wi2 en2 st2 tw2
  obtain ⟨d2, md2⟩ := mix_exists 1 (-1) r2.f (realF c2.f r2.f)
  have k := st2 d2 md2
  have hg := exact_lawful hx
  have bx1 : (updatedNodes (exactGrid g)).l ≤ (updatedNodes (exactGrid g)).r + 1 := by
    have := hw.nx; simp only [updatedNodes, exactGrid]; omega
  have bx2 : (updatedNodes (exactGrid g)).b ≤ (updatedNodes (exactGrid g)).t + 1 := by
    have := hw.ny; simp only [updatedNodes, exactGrid]; omega
  have ed : energy (exactGrid g) (fun i j => exactMed (med i j)) d (updatedNodes (exactGrid g)) = 0 := by
    have z : ∀ i j, d.Ez.val i j = 0 ∧ d.Hx.val i j = 0 ∧ d.Hy.val i j = 0 := by
      intro i j
      have a1 : s0.f.Ez.val i j = (e i j).val := rfl
      have a2 : s0.f.Hx.val i j = (x i j).val := rfl
      have a3 : s0.f.Hy.val i j = (y i j).val := rfl
      have b1 : (realF (setFields c1 e x y).f s0.f).Ez.val i j = (e i j).val := rfl
      have b2 : (realF (setFields c1 e x y).f s0.f).Hx.val i j = (x i j).val := rfl
      have b3 : (realF (setFields c1 e x y).f s0.f).Hy.val i j = (y i j).val := rfl
      rw [md.Ez, md.Hx, md.Hy, a1, a2, a3, b1, b2, b3]
      refine ⟨by ring, by ring, by ring⟩
    have zE := fun i j => (z i j).1
    have zX := fun i j => (z i j).2.1
    have zY := fun i j => (z i j).2.2
    unfold energy
    simp [zE, zX, zY, Box.sum]
  rw [ed, Real.sqrt_zero, mul_zero, zero_add] at k
  have es := energy_le_size hg bx1 bx2 (med := fun i j => exactMed (med i j)) h0 (fun i j h => (hmed i j h).1.top) (f := s0.f) out
  have sz0 : size (exactGrid g) s0.f (updatedNodes (exactGrid g)) = roundSize g.dx.val (setFields c1 e x y).f (updatedNodes (exactGrid g)) := rfl
  rw [sz0] at es
  have qd := md2.quiet (within_frame tw2.within) (within_frame wi2)
  have sq := sqrt_size hg bx1 bx2 (med := fun i j => exactMed (med i j)) (fun i j h => (hmed i j h).1.eps) qd
  have sg : size (exactGrid g) d2 (updatedNodes (exactGrid g)) = roundGap g.dx.val c2.f r2.f (updatedNodes (exactGrid g)) := by
    unfold size roundGap
    congr 1
    refine Box.sum_congr _ fun i j _ => ?_
    have b1 : (realF c2.f r2.f).Ez.val i j = (c2.f.Ez.val i j).val := rfl
    have b2 : (realF c2.f r2.f).Hx.val i j = (c2.f.Hx.val i j).val := rfl
    have b3 : (realF c2.f r2.f).Hy.val i j = (c2.f.Hy.val i j).val := rfl
    rw [md2.Ez, md2.Hx, md2.Hy, b1, b2, b3]
    ring
  rw [sg] at sq
  set P := (1 + roundGrowth epsMax * A.u) ^ n with hP
  have hP' : (1 + gain epsMax * A.u) ^ n = P := rfl
  rw [hP'] at k
  have P1 : 1 ≤ P := one_le_pow₀ (by have := mul_nonneg (gain_nonneg epsMax) A.u_nonneg; unfold gain at this; unfold roundGrowth; linarith)
  set S := Real.sqrt (roundSize g.dx.val (setFields c1 e x y).f (updatedNodes (exactGrid g))) with hS
  set N := Real.sqrt (energy (exactGrid g) (fun i j => exactMed (med i j)) s0.f (updatedNodes (exactGrid g))) with hN
  have NS : N ≤ Real.sqrt ((epsMax + 1) / 2) * S := by
    rw [hN, hS, ← Real.sqrt_mul (by linarith)]
    exact Real.sqrt_le_sqrt es
  have s8 := Real.sqrt_nonneg 8
  have two : Real.sqrt 8 * Real.sqrt ((epsMax + 1) / 2) = 2 * Real.sqrt (epsMax + 1) := by
    rw [← Real.sqrt_mul (by norm_num)]
    rw [show 8 * ((epsMax + 1) / 2) = 2 ^ 2 * (epsMax + 1) by ring, Real.sqrt_mul (by norm_num), Real.sqrt_sq (by norm_num)]
  have gr : Real.sqrt 8 * grain A g epsMax = 2 * Real.sqrt (epsMax + 1) * roundFloor g := by
    have e : grain A g epsMax = Real.sqrt ((epsMax + 1) / 2) * roundFloor g := rfl
    rw [e, ← two, mul_assoc]
  have w0 := grain_nonneg hx epsMax
  have D0 := Real.sqrt_nonneg (energy (exactGrid g) (fun i j => exactMed (med i j)) d2 (updatedNodes (exactGrid g)))
  set D := Real.sqrt (energy (exactGrid g) (fun i j => exactMed (med i j)) d2 (updatedNodes (exactGrid g))) with hD
  have SN : Real.sqrt 8 * N ≤ 2 * Real.sqrt (epsMax + 1) * S := by
    rw [← two, mul_assoc]
    exact mul_le_mul_of_nonneg_left NS s8
  have main : Real.sqrt 8 * D ≤ 2 * Real.sqrt (epsMax + 1) * ((P - 1) * S + n * P * roundFloor g) := by
    have a := mul_le_mul_of_nonneg_left k s8
    have b := mul_le_mul_of_nonneg_left SN (by linarith : 0 ≤ P - 1)
    have c : Real.sqrt 8 * (n * P * grain A g epsMax) = n * P * (2 * Real.sqrt (epsMax + 1) * roundFloor g) := by rw [← gr]; ring
    linarith
  refine ⟨c0, c1, c2, r0, r1, r2, k0, k1, u2, k0', k1', v2, sq.trans main, ?_⟩
  have sr : roundSize g.dx.val c2.f (updatedNodes (exactGrid g)) = size (exactGrid g) (realF c2.f r2.f) (updatedNodes (exactGrid g)) := rfl
  have sq2 := sqrt_size hg bx1 bx2 (med := fun i j => exactMed (med i j)) (fun i j h => (hmed i j h).1.eps) (within_frame wi2)
  obtain ⟨nd, mnd⟩ := mix_exists 0 (-1) r2.f d2
  have mback : Mix 1 1 r2.f nd (realF c2.f r2.f) :=
    ⟨fun i j => by rw [mnd.Ez, md2.Ez]; ring, fun i j => by rw [mnd.Hx, md2.Hx]; ring, fun i j => by rw [mnd.Hy, md2.Hy]; ring⟩
  have tri := energy_triangle hg bx1 bx2 (med := fun i j => exactMed (med i j)) (fun i j h => (hmed i j h).1.eps) mback (within_frame tw2.within)
    (mnd.quiet (within_frame tw2.within) qd)
  have en : energy (exactGrid g) (fun i j => exactMed (med i j)) nd (updatedNodes (exactGrid g)) =
      energy (exactGrid g) (fun i j => exactMed (med i j)) d2 (updatedNodes (exactGrid g)) := by
    unfold energy hxBack hyBack
    simp only [mnd.Ez, mnd.Hx, mnd.Hy]
    congr 1
    refine Box.sum_congr _ fun i j _ => ?_
    ring
  rw [en] at tri
  have en3 := Real.sqrt_le_sqrt en2
  rw [sr]
  refine sq2.trans ?_
  have a := mul_le_mul_of_nonneg_left (tri.trans (add_le_add_left en3 _)) s8
  rw [mul_add] at a
  linarith

theorem pow_bounds {a : ℝ} {n : ℕ} (ha : 0 ≤ a) (h : a * n ≤ 1) : (1 + a) ^ n - 1 ≤ 2 * (a * n) ∧ (1 + a) ^ n ≤ 3 := by
  have h0 : 0 ≤ a * n := by positivity
  have e : (1 + a) ^ n ≤ Real.exp (a * n) := by
    rw [mul_comm, Real.exp_nat_mul]
    refine pow_le_pow_left₀ (by linarith) ?_ n
    have := Real.add_one_le_exp a
    linarith
  have k := abs_le.mp (Real.abs_exp_sub_one_sub_id_le (x := a * n) (by rw [abs_of_nonneg h0]; exact h))
  have : (a * n) ^ 2 ≤ a * n := by nlinarith
  constructor <;> linarith

/-- **C74**, as long as the number of updates is far below the number of digits: the error grows at most in proportion to the number of updates. -/
theorem C74_linear_partial {A : Arith} (n : ℕ) (g : Grid (Rnd A)) (hw : g.Wide) (hT : g.T = 0) (hx : 0 < g.dx.val) (hdt : g.dt.val = g.dx.val / 2)
    (objs : List (Object (Rnd A))) (objs' : List (Object ℝ)) (same : List.Forall₂ (SameObject g) objs objs') (hs : ∀ o ∈ objs, o.Safe g)
    (hs' : ∀ o ∈ objs', o.Safe (exactGrid g)) (hc : ∀ o ∈ objs, o.Covered g) (hc' : ∀ o ∈ objs', o.Covered (exactGrid g)) (epsMax : ℝ)
    (hv : RoundPassive g.dx.val epsMax (vacuum : Simple (Rnd A))) (hp : ∀ o ∈ objs, ∀ m, o.mat.kind = .simple m → RoundPassive g.dx.val epsMax m)
    (e x y : ℤ → ℤ → Rnd A) (out : ∀ i j, ¬ (updatedNodes (exactGrid g)).Mem i j → (e i j).val = 0 ∧ (x i j).val = 0 ∧ (y i j).val = 0)
    (few : roundGrowth epsMax * A.u * n ≤ 1) :
    ∃ c0 c1 c2 r0 r1 r2, Core.make g = .ok c0 ∧ forList objs c0 (fun o c => c.insertObject o) = .ok c1 ∧ (setFields c1 e x y).run n [] = .ok (c2, []) ∧
      Core.make (exactGrid g) = .ok r0 ∧ forList objs' r0 (fun o c => c.insertObject o) = .ok r1 ∧
      (setFields r1 (fun i j => (e i j).val) (fun i j => (x i j).val) (fun i j => (y i j).val)).run n [] = .ok (r2, []) ∧
      Real.sqrt (roundGap g.dx.val c2.f r2.f (updatedNodes (exactGrid g))) ≤ n * (2 * Real.sqrt (epsMax + 1) *
        (2 * roundGrowth epsMax * A.u * Real.sqrt (roundSize g.dx.val (setFields c1 e x y).f (updatedNodes (exactGrid g))) + 3 * roundFloor g)) := by
  obtain ⟨c0, c1, c2, r0, r1, r2, k1, k2, k3, k4, k5, k6, k7, -⟩ := C74_rounding_partial n g hw hT hx hdt objs objs' same hs hs' hc hc' epsMax hv hp e x y out
  refine ⟨c0, c1, c2, r0, r1, r2, k1, k2, k3, k4, k5, k6, k7.trans ?_⟩
  have a0 : 0 ≤ roundGrowth epsMax * A.u := mul_nonneg (gain_nonneg epsMax) A.u_nonneg
  obtain ⟨b1, b2⟩ := pow_bounds a0 few
  have f0 : 0 ≤ roundFloor g := by have := A.tiny_nonneg; unfold roundFloor; positivity
  set S := Real.sqrt (roundSize g.dx.val (setFields c1 e x y).f (updatedNodes (exactGrid g)))
  have S0 : 0 ≤ S := Real.sqrt_nonneg _
  have q0 : 0 ≤ 2 * Real.sqrt (epsMax + 1) := by positivity
  have m1 := mul_le_mul_of_nonneg_right b1 S0
  have m2 := mul_le_mul_of_nonneg_right (mul_le_mul_of_nonneg_left b2 (Nat.cast_nonneg (α := ℝ) n)) f0
  refine (mul_le_mul_of_nonneg_left (add_le_add m1 m2) q0).trans (le_of_eq (by ring))

/-- **C74** in numbers: double precision, permittivities up to 16 and up to a billion updates. The error is below one part in three hundred of the start
field, apart from what the smallest numbers add, which are below `10⁻³²³`. -/
theorem C74_double_partial (sin cos exp : ℝ → ℝ) (pow : ℝ → ℕ → ℝ) (pi : ℝ) (n : ℕ) (hn : n ≤ 10 ^ 9) (g : Grid (Rnd (double sin cos exp pow pi))) (hw : g.Wide)
    (hT : g.T = 0) (hx : 0 < g.dx.val) (hdt : g.dt.val = g.dx.val / 2) (objs : List (Object (Rnd (double sin cos exp pow pi)))) (objs' : List (Object ℝ))
    (same : List.Forall₂ (SameObject g) objs objs') (hs : ∀ o ∈ objs, o.Safe g) (hs' : ∀ o ∈ objs', o.Safe (exactGrid g)) (hc : ∀ o ∈ objs, o.Covered g)
    (hc' : ∀ o ∈ objs', o.Covered (exactGrid g)) (hv : RoundPassive g.dx.val 16 (vacuum : Simple (Rnd (double sin cos exp pow pi))))
    (hp : ∀ o ∈ objs, ∀ m, o.mat.kind = .simple m → RoundPassive g.dx.val 16 m) (e x y : ℤ → ℤ → Rnd (double sin cos exp pow pi))
    (out : ∀ i j, ¬ (updatedNodes (exactGrid g)).Mem i j → (e i j).val = 0 ∧ (x i j).val = 0 ∧ (y i j).val = 0) :
    ∃ c0 c1 c2 r0 r1 r2, Core.make g = .ok c0 ∧ forList objs c0 (fun o c => c.insertObject o) = .ok c1 ∧ (setFields c1 e x y).run n [] = .ok (c2, []) ∧
      Core.make (exactGrid g) = .ok r0 ∧ forList objs' r0 (fun o c => c.insertObject o) = .ok r1 ∧
      (setFields r1 (fun i j => (e i j).val) (fun i j => (x i j).val) (fun i j => (y i j).val)).run n [] = .ok (r2, []) ∧
      Real.sqrt (roundGap g.dx.val c2.f r2.f (updatedNodes (exactGrid g))) ≤
        Real.sqrt (roundSize g.dx.val (setFields c1 e x y).f (updatedNodes (exactGrid g))) / 300 + n * (27 * roundFloor g) := by
  have s17 : Real.sqrt (16 + 1) ≤ 5 := by
    rw [Real.sqrt_le_left (by norm_num)]; norm_num
  have s17' : Real.sqrt (16 + 1) ^ 2 = 17 := by rw [Real.sq_sqrt (by norm_num)]; norm_num
  have s0 := Real.sqrt_nonneg (16 + 1 : ℝ)
  obtain ⟨q, hq⟩ : ∃ q, q = Real.sqrt (16 + 1) := ⟨_, rfl⟩
  rw [← hq] at s17 s17' s0
  have hn' : (n : ℝ) ≤ 10 ^ 9 := by exact_mod_cast hn
  have n0 := Nat.cast_nonneg (α := ℝ) n
  have hu : (double sin cos exp pow pi).u = 2 ^ (-53 : ℤ) := rfl
  have hu' : (2 : ℝ) ^ (-53 : ℤ) = 1 / 9007199254740992 := by norm_num
  obtain ⟨c0, c1, c2, r0, r1, r2, k1, k2, k3, k4, k5, k6, k7⟩ := C74_linear_partial n g hw hT hx hdt objs objs' same hs hs' hc hc' 16 hv hp e x y out (by
    rw [hu, hu']
    unfold roundGrowth
    rw [← hq]
    have := mul_le_mul s17 hn' n0 (by norm_num)
    linarith)
  refine ⟨c0, c1, c2, r0, r1, r2, k1, k2, k3, k4, k5, k6, k7.trans ?_⟩
  have f0 : 0 ≤ roundFloor g := by have := (double sin cos exp pow pi).tiny_nonneg; unfold roundFloor; positivity
  set S := Real.sqrt (roundSize g.dx.val (setFields c1 e x y).f (updatedNodes (exactGrid g)))
  have S0 : 0 ≤ S := Real.sqrt_nonneg _
  have e1 : (n : ℝ) * (2 * q * (2 * roundGrowth 16 * (double sin cos exp pow pi).u * S + 3 * roundFloor g)) =
      n * S * (4 * 332 * 17 / 9007199254740992) + n * roundFloor g * (6 * q) := by
    rw [hu, hu']
    unfold roundGrowth
    rw [← hq, ← s17']
    ring
  rw [← hq, e1]
  have m1 := mul_le_mul_of_nonneg_right hn' S0
  have m2 : (n : ℝ) * roundFloor g * (6 * q) ≤ n * roundFloor g * 27 := by
    refine mul_le_mul_of_nonneg_left ?_ (by positivity)
    nlinarith
  have m3 : (n : ℝ) * S * (4 * 332 * 17 / 9007199254740992) ≤ S / 300 := by linarith
  linarith

end Qbox.Props
