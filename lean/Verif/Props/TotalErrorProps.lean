import Verif.Props.ConvergeProps
import Verif.Props.RoundedProps
import Verif.Spec.TotalSpec

/-! # The whole error of a simulation: cells, start values and rounding (C75) -/

namespace Qbox.Props
open Qbox Scalar Spec

/-- The triangle inequality for the square root of a sum of squares. -/
theorem sqrt_sum_triangle (R : Box) (a1 a2 a3 b1 b2 b3 : ℤ → ℤ → ℝ) :
    Real.sqrt (R.sum fun i j => (a1 i j + b1 i j) ^ 2 + (a2 i j + b2 i j) ^ 2 + (a3 i j + b3 i j) ^ 2) ≤
      Real.sqrt (R.sum fun i j => a1 i j ^ 2 + a2 i j ^ 2 + a3 i j ^ 2) + Real.sqrt (R.sum fun i j => b1 i j ^ 2 + b2 i j ^ 2 + b3 i j ^ 2) := by
  obtain ⟨A, hA⟩ : ∃ A, A = R.sum fun i j => a1 i j ^ 2 + a2 i j ^ 2 + a3 i j ^ 2 := ⟨_, rfl⟩
  obtain ⟨B, hB⟩ : ∃ B, B = R.sum fun i j => b1 i j ^ 2 + b2 i j ^ 2 + b3 i j ^ 2 := ⟨_, rfl⟩
  obtain ⟨X, hX⟩ : ∃ X, X = R.sum fun i j => a1 i j * b1 i j + a2 i j * b2 i j + a3 i j * b3 i j := ⟨_, rfl⟩
  have ex : ∀ t : ℝ, (R.sum fun i j => (a1 i j * t + b1 i j) ^ 2 + (a2 i j * t + b2 i j) ^ 2 + (a3 i j * t + b3 i j) ^ 2) = A * (t * t) + 2 * X * t + B := by
    intro t
    rw [hA, hB, hX]
    unfold Box.sum
    rw [Finset.sum_mul, Finset.mul_sum, Finset.sum_mul, ← Finset.sum_add_distrib, ← Finset.sum_add_distrib]
    refine Finset.sum_congr rfl fun i _ => ?_
    rw [Finset.sum_mul, Finset.mul_sum, Finset.sum_mul, ← Finset.sum_add_distrib, ← Finset.sum_add_distrib]
    exact Finset.sum_congr rfl fun j _ => by ring
  have A0 : 0 ≤ A := by rw [hA]; exact R.sum_nonneg fun i j _ => by positivity
  have B0 : 0 ≤ B := by rw [hB]; exact R.sum_nonneg fun i j _ => by positivity
  have d := discrim_le_zero (a := A) (b := 2 * X) (c := B) fun t => by
    rw [← ex t]
    exact R.sum_nonneg fun i j _ => by positivity
  unfold discrim at d
  have one := ex 1
  simp only [mul_one] at one
  rw [one, ← hA, ← hB]
  have xs : X ≤ Real.sqrt A * Real.sqrt B := by
    rw [← Real.sqrt_mul A0]
    exact Real.le_sqrt_of_sq_le (by linarith)
  refine Real.sqrt_le_iff.mpr ⟨by positivity, ?_⟩
  have := Real.sq_sqrt A0
  have := Real.sq_sqrt B0
  nlinarith

/-- **C75** without rounding: the simulation may start with other values than those of the solution; the difference at the start is not amplified by
more than a fixed factor. -/
theorem C75_start (n : ℕ) (g : Grid ℝ) (hw : g.Wide) (hl : Lawful g) (hT : g.T = 0) (objs : List (Object ℝ)) (hb : ∀ o ∈ objs, BoxSound o)
    (hc : ∀ o ∈ objs, ClearOfUnguardedEdges g o) (hp : ∀ o ∈ objs, PassiveObject o) (epsMax sigMax : ℝ) (he : AtMost epsMax objs)
    (hs : ConductAtMost sigMax objs) (eps sig : ℝ → ℝ → ℝ) (hmed : MediumOf objs eps sig) (w : Wave) (S : ℝ → ℝ → Prop) (τ M : ℝ) (hsm : w.Smooth S g τ M)
    (hst : w.Steady g τ M) (hmx : w.Maxwell S eps sig g τ) (hwl : w.Walls g τ) (hn : ((n : ℝ) + 1 / 2) * g.dt ≤ τ) (e x y : ℤ → ℤ → ℝ)
    (hout : ∀ i j, ¬ (updatedNodes g).Mem i j → e i j = 0 ∧ x i j = 0 ∧ y i j = 0) :
    ∃ c0 c1 c2, Core.make g = .ok c0 ∧ forList objs c0 (fun o c => c.insertObject o) = .ok c1 ∧ (withFields c1 e x y).run n [] = .ok (c2, []) ∧
      Real.sqrt (gap w g n c2.f (updatedNodes g)) ≤ 2 * Real.sqrt (epsMax + 1) * Real.sqrt (gap w g 0 (withFields c1 e x y).f (updatedNodes g)) +
        n * g.dt * cellError S g M epsMax sigMax := by
  obtain ⟨med, hm⟩ := filled_exists g objs hp
  obtain ⟨c0, c1, h1, h2, h3, h4, -, h6, h7, h8, h9⟩ := objects_passive hw hl (.inl hT) objs hb hc hp med hm e x y
  have eg : (withFields c1 e x y).g = g := h4
  have psv : Passive (withFields c1 e x y) med (updatedNodes g) := h9 _ fun i j h => by
    unfold Box.Mem updatedNodes at h
    simp only at h
    constructor <;> rw [hT] <;> omega
  have hcl : Closed (withFields c1 e x y) med := by
    refine ⟨h3, by rw [eg, hT], h8, h6, h7, by rw [eg]; exact psv, by rw [eg]; exact within_frame fun i j h => hout i j h⟩
  have hx := hl.dx
  have hdt : 0 < g.dt := by rw [hl.dt]; linarith
  have hmd : ∀ i j, (updatedNodes g).Mem i j → (med i j).eps = eps (i * g.dx) (j * g.dx) ∧ (med i j).conduc = sig (i * g.dx) (j * g.dx) ∧
      1 ≤ (med i j).eps ∧ (med i j).eps ≤ epsMax ∧ 0 ≤ (med i j).conduc ∧ (med i j).conduc ≤ sigMax := by
    intro i j h
    have pt : g.toReal ⟨i, j⟩ = ⟨i * g.dx, j * g.dx⟩ := by simp [Grid.toReal, mul_comm]
    have q1 := psv.eps i j h
    have q2 := psv.conduc i j h
    have q3 := filled_atMost hm he i j
    rcases C09_total objs (g.toReal ⟨i, j⟩) with hv | ⟨o, ho⟩
    · have v := hm.vacuum i j hv
      have := hmed.vacuum _ hv
      rw [pt] at this
      rw [v] at q1 q2 q3 ⊢
      refine ⟨by rw [this.1]; simp [Qbox.vacuum], by rw [this.2]; simp [Qbox.vacuum], q1, q3, q2, ?_⟩
      simpa [Qbox.vacuum] using hs.1
    · have k := hm.object i j o ho
      have := hmed.object _ o _ ho k
      rw [pt] at this
      have hmem : o ∈ objs := by
        obtain ⟨b, a, e, -, -⟩ := ho
        rw [e]; simp
      exact ⟨this.1.symm, this.2.symm, q1, q3, q2, hs.2 o hmem _ k⟩
  obtain ⟨d, md⟩ := mix_exists 1 (-1) (withFields c1 e x y).f (sampled w g 0 (withFields c1 e x y).f)
  obtain ⟨c2, r, k, g2, d2, md2, er⟩ := error_run hw hl hT hwl hsm hst hmx he.1 hmd n 0 _ hcl eg (by push_cast; linarith) d md
  refine ⟨c0, c1, c2, h1, h2, r, ?_⟩
  obtain ⟨b1, b2⟩ := hcl.box
  rw [eg] at b1 b2
  have q2 : FrameQuiet d2 (updatedNodes g) := md2.quiet (by rw [← g2]; exact k.frame) (sampled_quiet ..)
  have df := sqrt_size hl (med := med) b1 b2 psv.eps q2
  have gp : ∀ (m : ℕ) (f d : Flds ℝ), Mix 1 (-1) f (sampled w g m f) d → gap w g m f (updatedNodes g) = size g d (updatedNodes g) := by
    intro m f d md
    unfold gap size
    congr 1
    refine Box.sum_congr _ fun i j h => ?_
    rw [md.Ez, md.Hx, md.Hy]
    have s1 : (sampled w g m f).Ez.val i j = w.nodeE g m i j := if_pos h
    have s2 : (sampled w g m f).Hx.val i j = w.nodeX g m i j := if_pos h
    have s3 : (sampled w g m f).Hy.val i j = w.nodeY g m i j := if_pos h
    rw [s1, s2, s3]
    ring
  rw [zero_add] at md2
  rw [gp n _ _ md2, gp 0 _ _ md]
  have wd : Within d (updatedNodes g) := by
    intro i j h
    have s1 : (sampled w g 0 (withFields c1 e x y).f).Ez.val i j = 0 := if_neg h
    have s2 : (sampled w g 0 (withFields c1 e x y).f).Hx.val i j = 0 := if_neg h
    have s3 : (sampled w g 0 (withFields c1 e x y).f).Hy.val i j = 0 := if_neg h
    have v1 : (withFields c1 e x y).f.Ez.val i j = e i j := rfl
    have v2 : (withFields c1 e x y).f.Hx.val i j = x i j := rfl
    have v3 : (withFields c1 e x y).f.Hy.val i j = y i j := rfl
    obtain ⟨o1, o2, o3⟩ := hout i j h
    rw [md.Ez, md.Hx, md.Hy, s1, s2, s3, v1, v2, v3, o1, o2, o3]
    norm_num
  have es := Real.sqrt_le_sqrt (energy_le_size hl b1 b2 he.1 (fun i j h => (hmd i j h).2.2.2.1) wd)
  rw [Real.sqrt_mul (by linarith [he.1])] at es
  have s8 := Real.sqrt_nonneg 8
  have two : Real.sqrt 8 * Real.sqrt ((epsMax + 1) / 2) = 2 * Real.sqrt (epsMax + 1) := by
    rw [← Real.sqrt_mul (by norm_num)]
    rw [show 8 * ((epsMax + 1) / 2) = 2 ^ 2 * (epsMax + 1) by ring, Real.sqrt_mul (by norm_num), Real.sqrt_sq (by norm_num)]
  have ce : Real.sqrt 8 * (Real.sqrt ((epsMax + 1) / 2) * Real.sqrt (roughness S g M epsMax sigMax)) = cellError S g M epsMax sigMax := by
    rw [← mul_assoc, two]
    unfold cellError roughness
    rw [show 12 * (epsMax + 1) = (2 * Real.sqrt (epsMax + 1)) ^ 2 * 3 by rw [mul_pow, Real.sq_sqrt (by linarith [he.1])]; ring]
    rw [mul_assoc ((2 * Real.sqrt (epsMax + 1)) ^ 2), Real.sqrt_mul (sq_nonneg (2 * Real.sqrt (epsMax + 1))), Real.sqrt_sq (by positivity)]
    rfl
  have a := mul_le_mul_of_nonneg_left (er.trans (add_le_add_left es _)) s8
  refine df.trans (a.trans (le_of_eq ?_))
  rw [← two, ← ce]
  ring

/-- **C75**, for any arithmetic with rounding. A closed domain is made, any objects of passive simple media are added and the fields are given any
start values. After any number of updates the program has run without a fault, and its fields differ from a solution of Maxwell's equations by at most
the sum of four terms: the difference at the start, what rounding adds in proportion to the field, what the smallest numbers of the
arithmetic add, and what the size of the cells adds. -/
theorem C75_total {A : Arith} (n : ℕ) (g : Grid (Rnd A)) (hw : g.Wide) (hT : g.T = 0) (hx : 0 < g.dx.val) (hdt : g.dt.val = g.dx.val / 2)
    (objs : List (Object (Rnd A))) (objs' : List (Object ℝ)) (same : List.Forall₂ (SameObject g) objs objs') (hs : ∀ o ∈ objs, o.Safe g)
    (hc : ∀ o ∈ objs, o.Covered g) (hb' : ∀ o ∈ objs', BoxSound o) (hc' : ∀ o ∈ objs', ClearOfUnguardedEdges (exactGrid g) o) (epsMax sigMax : ℝ)
    (hv : RoundPassive g.dx.val epsMax (vacuum : Simple (Rnd A))) (hp : ∀ o ∈ objs, ∀ m, o.mat.kind = .simple m → RoundPassive g.dx.val epsMax m)
    (hsg : 0 ≤ sigMax) (hsm : ∀ o ∈ objs, ∀ m, o.mat.kind = .simple m → m.conduc.val ≤ sigMax) (eps sig : ℝ → ℝ → ℝ) (hmed : MediumOf objs' eps sig)
    (w : Wave) (S : ℝ → ℝ → Prop) (τ M : ℝ) (hws : w.Smooth S (exactGrid g) τ M) (hst : w.Steady (exactGrid g) τ M)
    (hmx : w.Maxwell S eps sig (exactGrid g) τ) (hwl : w.Walls (exactGrid g) τ) (hn : ((n : ℝ) + 1 / 2) * g.dt.val ≤ τ)
    (e x y : ℤ → ℤ → Rnd A) (out : ∀ i j, ¬ (updatedNodes (exactGrid g)).Mem i j → (e i j).val = 0 ∧ (x i j).val = 0 ∧ (y i j).val = 0) :
    ∃ c0 c1 c2, Core.make g = .ok c0 ∧ forList objs c0 (fun o c => c.insertObject o) = .ok c1 ∧ (setFields c1 e x y).run n [] = .ok (c2, []) ∧
      Real.sqrt (totalGap w (exactGrid g) n c2.f (updatedNodes (exactGrid g))) ≤
        2 * Real.sqrt (epsMax + 1) * Real.sqrt (totalGap w (exactGrid g) 0 (setFields c1 e x y).f (updatedNodes (exactGrid g))) +
        2 * Real.sqrt (epsMax + 1) * ((1 + roundGrowth epsMax * A.u) ^ n - 1) * Real.sqrt (roundSize g.dx.val (setFields c1 e x y).f (updatedNodes (exactGrid g))) +
        2 * Real.sqrt (epsMax + 1) * (n * (1 + roundGrowth epsMax * A.u) ^ n * roundFloor g) +
        n * g.dt.val * cellError S (exactGrid g) M epsMax sigMax := by
  have hl := exact_lawful hx
  have h0 : 1 ≤ epsMax := hv.eps.trans hv.top
  obtain ⟨c0, c1, c2, r0, r1, r2, k1, k2, k3, k4, k5, k6, k7, -⟩ := C74_rounding_partial n g hw hT hx hdt objs objs' same hs
    (fun o ho => safe_of_clear hl (hc' o ho)) hc (fun o ho => covered_of_sound hl (hb' o ho)) epsMax hv hp e x y out
  have medium : ∀ o' ∈ objs', ∃ o ∈ objs, ∃ m, o.mat.kind = .simple m ∧ o'.mat.kind = .simple (exactMed m) := fun o' ho' => by
    obtain ⟨o, ho, so⟩ := forall2_right same o' ho'
    obtain ⟨m, h1, h2⟩ := so.medium
    exact ⟨o, ho, m, h1, h2⟩
  obtain ⟨a0, a1, a2, j1, j2, j3, j4⟩ := C75_start n (exactGrid g) ⟨hw.nx, hw.ny⟩ hl hT objs' hb' hc' (fun o' ho' => by
      obtain ⟨o, ho, m, h1, h2⟩ := medium o' ho'
      exact ⟨_, h2, (hp o ho m h1).eps, (hp o ho m h1).conduc⟩) epsMax sigMax ⟨h0, fun o' ho' m' hm' => by
      obtain ⟨o, ho, m, h1, h2⟩ := medium o' ho'
      rw [h2] at hm'
      cases hm'
      exact (hp o ho m h1).top⟩ ⟨hsg, fun o' ho' m' hm' => by
      obtain ⟨o, ho, m, h1, h2⟩ := medium o' ho'
      rw [h2] at hm'
      cases hm'
      exact hsm o ho m h1⟩ eps sig hmed w S τ M hws hst hmx hwl (by
        have : (exactGrid g).dt = g.dt.val := hdt.symm
        rw [this]; exact hn) (fun i j => (e i j).val) (fun i j => (x i j).val) (fun i j => (y i j).val) out
  rw [k4] at j1
  cases j1
  rw [k5] at j2
  cases j2
  rw [show withFields r1 (fun i j => (e i j).val) (fun i j => (x i j).val) (fun i j => (y i j).val) =
    setFields r1 (fun i j => (e i j).val) (fun i j => (x i j).val) (fun i j => (y i j).val) from rfl, k6] at j3
  cases j3
  refine ⟨c0, c1, c2, k1, k2, k3, ?_⟩
  have st : gap w (exactGrid g) 0 (withFields r1 (fun i j => (e i j).val) (fun i j => (x i j).val) (fun i j => (y i j).val)).f (updatedNodes (exactGrid g)) =
      totalGap w (exactGrid g) 0 (setFields c1 e x y).f (updatedNodes (exactGrid g)) := rfl
  rw [st, show (exactGrid g).dt = g.dt.val from hdt.symm] at j4
  have dx : (exactGrid g).dx = g.dx.val := rfl
  have tri := sqrt_sum_triangle (updatedNodes (exactGrid g))
    (fun i j => r2.f.Ez.val i j - w.nodeE (exactGrid g) n i j) (fun i j => r2.f.Hx.val i j - w.nodeX (exactGrid g) n i j)
    (fun i j => r2.f.Hy.val i j - w.nodeY (exactGrid g) n i j) (fun i j => (c2.f.Ez.val i j).val - r2.f.Ez.val i j)
    (fun i j => (c2.f.Hx.val i j).val - r2.f.Hx.val i j) (fun i j => (c2.f.Hy.val i j).val - r2.f.Hy.val i j)
  have t1 : Real.sqrt (totalGap w (exactGrid g) n c2.f (updatedNodes (exactGrid g))) ≤
      Real.sqrt (gap w (exactGrid g) n r2.f (updatedNodes (exactGrid g))) + Real.sqrt (roundGap g.dx.val c2.f r2.f (updatedNodes (exactGrid g))) := by
    unfold totalGap gap roundGap
    rw [dx, Real.sqrt_mul (sq_nonneg _), Real.sqrt_mul (sq_nonneg _), Real.sqrt_mul (sq_nonneg _), ← mul_add]
    refine mul_le_mul_of_nonneg_left ?_ (Real.sqrt_nonneg _)
    refine le_trans (le_of_eq ?_) (tri.trans (le_of_eq ?_))
    · congr 1
      exact Box.sum_congr _ fun i j _ => by ring
    · congr 2
      exact Box.sum_congr _ fun i j _ => by ring
  linarith

/-- Start values that are rounded values of the wave. -/
theorem rounded_start {A : Arith} (w : Wave) {g : Grid ℝ} (R : Box) {f : Flds (Rnd A)}
    (h : ∀ i j, R.Mem i j → (f.Ez.val i j).val = A.r (w.nodeE g 0 i j) ∧ (f.Hx.val i j).val = A.r (w.nodeX g 0 i j) ∧ (f.Hy.val i j).val = A.r (w.nodeY g 0 i j)) :
    Real.sqrt (totalGap w g 0 f R) ≤ A.u * Real.sqrt (waveSize w g R) + 2 * A.tiny * Real.sqrt (g.dx ^ 2 * R.sum fun _ _ => 1) ∧
      Real.sqrt (roundSize g.dx f R) ≤ Real.sqrt (totalGap w g 0 f R) + Real.sqrt (waveSize w g R) := by
  have u0 := A.u_nonneg
  have t0 := A.tiny_nonneg
  constructor
  · unfold totalGap waveSize
    rw [Real.sqrt_mul (sq_nonneg _), Real.sqrt_mul (sq_nonneg _), Real.sqrt_mul (sq_nonneg _)]
    have tri := sqrt_sum_triangle R (fun i j => A.u * |w.nodeE g 0 i j|) (fun i j => A.u * |w.nodeX g 0 i j|) (fun i j => A.u * |w.nodeY g 0 i j|)
      (fun _ _ => A.tiny) (fun _ _ => A.tiny) (fun _ _ => A.tiny)
    have e1 : R.sum (fun i j => (A.u * |w.nodeE g 0 i j|) ^ 2 + (A.u * |w.nodeX g 0 i j|) ^ 2 + (A.u * |w.nodeY g 0 i j|) ^ 2) =
        A.u ^ 2 * R.sum fun i j => w.nodeE g 0 i j ^ 2 + w.nodeX g 0 i j ^ 2 + w.nodeY g 0 i j ^ 2 := by
      rw [← Box.sum_mul]
      exact Box.sum_congr _ fun i j _ => by rw [mul_pow, mul_pow, mul_pow, sq_abs, sq_abs, sq_abs]; ring
    have e2 : R.sum (fun _ _ => A.tiny ^ 2 + A.tiny ^ 2 + A.tiny ^ 2) ≤ (2 * A.tiny) ^ 2 * R.sum fun _ _ => 1 := by
      rw [← Box.sum_mul]
      exact R.sum_le fun i j _ => by nlinarith
    have lo : Real.sqrt (R.sum fun i j => ((f.Ez.val i j).val - w.nodeE g 0 i j) ^ 2 + ((f.Hx.val i j).val - w.nodeX g 0 i j) ^ 2 +
        ((f.Hy.val i j).val - w.nodeY g 0 i j) ^ 2) ≤ Real.sqrt (R.sum fun i j => (A.u * |w.nodeE g 0 i j| + A.tiny) ^ 2 + (A.u * |w.nodeX g 0 i j| + A.tiny) ^ 2 +
          (A.u * |w.nodeY g 0 i j| + A.tiny) ^ 2) := by
      refine Real.sqrt_le_sqrt (R.sum_le fun i j hm => ?_)
      obtain ⟨a1, a2, a3⟩ := h i j hm
      have k : ∀ z : ℝ, (A.r z - z) ^ 2 ≤ (A.u * |z| + A.tiny) ^ 2 := fun z => sq_le_sq' (abs_le.mp (A.near z)).1 (abs_le.mp (A.near z)).2
      rw [a1, a2, a3]
      have := k (w.nodeE g 0 i j)
      have := k (w.nodeX g 0 i j)
      have := k (w.nodeY g 0 i j)
      linarith
    have s2 := Real.sqrt_le_sqrt e2
    rw [e1, Real.sqrt_mul (sq_nonneg _), Real.sqrt_sq u0] at tri
    rw [Real.sqrt_mul (sq_nonneg _), Real.sqrt_sq (by linarith)] at s2
    have := mul_le_mul_of_nonneg_left (lo.trans (tri.trans (add_le_add_right s2 _))) (Real.sqrt_nonneg (g.dx ^ 2))
    refine this.trans (le_of_eq (by ring))
  · unfold totalGap waveSize roundSize
    rw [Real.sqrt_mul (sq_nonneg _), Real.sqrt_mul (sq_nonneg _), Real.sqrt_mul (sq_nonneg _), ← mul_add]
    refine mul_le_mul_of_nonneg_left (le_trans (le_of_eq ?_) (sqrt_sum_triangle R (fun i j => (f.Ez.val i j).val - w.nodeE g 0 i j)
      (fun i j => (f.Hx.val i j).val - w.nodeX g 0 i j) (fun i j => (f.Hy.val i j).val - w.nodeY g 0 i j) (fun i j => w.nodeE g 0 i j)
      (fun i j => w.nodeX g 0 i j) (fun i j => w.nodeY g 0 i j))) (Real.sqrt_nonneg _)
    congr 1
    exact Box.sum_congr _ fun i j _ => by ring

/-- **C75** in numbers: double precision, permittivities up to 16, up to a billion updates, start values rounded to the nearest double. -/
theorem C75_double (sin cos exp : ℝ → ℝ) (pow : ℝ → ℕ → ℝ) (pi : ℝ) (n : ℕ) (hn9 : n ≤ 10 ^ 9) (g : Grid (Rnd (double sin cos exp pow pi))) (hw : g.Wide)
    (hT : g.T = 0) (hx : 0 < g.dx.val) (hdt : g.dt.val = g.dx.val / 2) (objs : List (Object (Rnd (double sin cos exp pow pi)))) (objs' : List (Object ℝ))
    (same : List.Forall₂ (SameObject g) objs objs') (hs : ∀ o ∈ objs, o.Safe g) (hc : ∀ o ∈ objs, o.Covered g) (hb' : ∀ o ∈ objs', BoxSound o)
    (hc' : ∀ o ∈ objs', ClearOfUnguardedEdges (exactGrid g) o) (sigMax : ℝ) (hv : RoundPassive g.dx.val 16 (vacuum : Simple (Rnd (double sin cos exp pow pi))))
    (hp : ∀ o ∈ objs, ∀ m, o.mat.kind = .simple m → RoundPassive g.dx.val 16 m) (hsg : 0 ≤ sigMax)
    (hsm : ∀ o ∈ objs, ∀ m, o.mat.kind = .simple m → m.conduc.val ≤ sigMax) (eps sig : ℝ → ℝ → ℝ) (hmed : MediumOf objs' eps sig)
    (w : Wave) (S : ℝ → ℝ → Prop) (τ M : ℝ) (hws : w.Smooth S (exactGrid g) τ M) (hst : w.Steady (exactGrid g) τ M)
    (hmx : w.Maxwell S eps sig (exactGrid g) τ) (hwl : w.Walls (exactGrid g) τ) (hn : ((n : ℝ) + 1 / 2) * g.dt.val ≤ τ)
    (e x y : ℤ → ℤ → Rnd (double sin cos exp pow pi))
    (hin : ∀ i j, (updatedNodes (exactGrid g)).Mem i j → (e i j).val = toDouble (w.nodeE (exactGrid g) 0 i j) ∧
      (x i j).val = toDouble (w.nodeX (exactGrid g) 0 i j) ∧ (y i j).val = toDouble (w.nodeY (exactGrid g) 0 i j))
    (out : ∀ i j, ¬ (updatedNodes (exactGrid g)).Mem i j → (e i j).val = 0 ∧ (x i j).val = 0 ∧ (y i j).val = 0) :
    ∃ c0 c1 c2, Core.make g = .ok c0 ∧ forList objs c0 (fun o c => c.insertObject o) = .ok c1 ∧ (setFields c1 e x y).run n [] = .ok (c2, []) ∧
      Real.sqrt (totalGap w (exactGrid g) n c2.f (updatedNodes (exactGrid g))) ≤
        n * g.dt.val * cellError S (exactGrid g) M 16 sigMax +
        (n + 1) * (3 / 10 ^ 12 * Real.sqrt (waveSize w (exactGrid g) (updatedNodes (exactGrid g))) + 30 * roundFloor g) := by
  have s17 : Real.sqrt (16 + 1) ≤ 21 / 5 := by
    rw [Real.sqrt_le_left (by norm_num)]; norm_num
  have s17' : Real.sqrt (16 + 1) ^ 2 = 17 := by rw [Real.sq_sqrt (by norm_num)]; norm_num
  have s0 := Real.sqrt_nonneg (16 + 1 : ℝ)
  obtain ⟨q, hq⟩ : ∃ q, q = Real.sqrt (16 + 1) := ⟨_, rfl⟩
  rw [← hq] at s17 s17' s0
  have hn' : (n : ℝ) ≤ 10 ^ 9 := by exact_mod_cast hn9
  have n0 := Nat.cast_nonneg (α := ℝ) n
  have hu : (double sin cos exp pow pi).u = 1 / 9007199254740992 := by
    show (2 : ℝ) ^ (-53 : ℤ) = _
    norm_num
  obtain ⟨c0, c1, c2, k1, k2, k3, k4⟩ := C75_total n g hw hT hx hdt objs objs' same hs hc hb' hc' 16 sigMax hv hp hsg hsm eps sig hmed w S τ M hws hst hmx hwl hn e x y out
  refine ⟨c0, c1, c2, k1, k2, k3, k4.trans ?_⟩
  obtain ⟨r1, r2⟩ := rounded_start w (updatedNodes (exactGrid g)) (f := (setFields c1 e x y).f) hin
  have dx : (exactGrid g).dx = g.dx.val := rfl
  rw [dx] at r1 r2
  have t0 := (double sin cos exp pow pi).tiny_nonneg
  have few : roundGrowth 16 * (double sin cos exp pow pi).u * n ≤ 1 := by
    rw [hu]
    unfold roundGrowth
    rw [← hq]
    have := mul_le_mul s17 hn' n0 (by norm_num)
    linarith
  obtain ⟨b1, b2⟩ := pow_bounds (mul_nonneg (by unfold roundGrowth; positivity) (double sin cos exp pow pi).u_nonneg) few
  obtain ⟨D, hD⟩ : ∃ D, D = Real.sqrt (totalGap w (exactGrid g) 0 (setFields c1 e x y).f (updatedNodes (exactGrid g))) := ⟨_, rfl⟩
  obtain ⟨Z, hZ⟩ : ∃ Z, Z = Real.sqrt (roundSize g.dx.val (setFields c1 e x y).f (updatedNodes (exactGrid g))) := ⟨_, rfl⟩
  obtain ⟨W, hW⟩ : ∃ W, W = Real.sqrt (waveSize w (exactGrid g) (updatedNodes (exactGrid g))) := ⟨_, rfl⟩
  obtain ⟨Q, hQ⟩ : ∃ Q, Q = Real.sqrt (g.dx.val ^ 2 * (updatedNodes (exactGrid g)).sum fun _ _ => 1) := ⟨_, rfl⟩
  obtain ⟨F, hF⟩ : ∃ F, F = roundFloor g := ⟨_, rfl⟩
  obtain ⟨P, hP⟩ : ∃ P, P = (1 + roundGrowth 16 * (double sin cos exp pow pi).u) ^ n := ⟨_, rfl⟩
  obtain ⟨tn, htn⟩ : ∃ tn, tn = (double sin cos exp pow pi).tiny := ⟨_, rfl⟩
  have D0 : 0 ≤ D := by rw [hD]; exact Real.sqrt_nonneg _
  have Z0 : 0 ≤ Z := by rw [hZ]; exact Real.sqrt_nonneg _
  have W0 : 0 ≤ W := by rw [hW]; exact Real.sqrt_nonneg _
  have Q0 : 0 ≤ Q := by rw [hQ]; exact Real.sqrt_nonneg _
  rw [← hD, ← hW, ← hQ, ← htn, hu] at r1
  rw [← hZ, ← hD, ← hW] at r2
  rw [← htn] at t0
  have fl : 24 * (tn * Q) ≤ F := by
    have e : F = 3 * ((8 + 5 * g.dx.val + 3 / g.dx.val) * tn) * Q := by rw [hF, htn, hQ]; rfl
    have i0 : 0 ≤ 5 * g.dx.val + 3 / g.dx.val := by positivity
    have := mul_nonneg i0 (mul_nonneg t0 Q0)
    rw [e]
    linarith
  have tQ := mul_nonneg t0 Q0
  rw [← hq, ← hD, ← hZ, ← hP, ← hF, ← hW]
  rw [← hP] at b1 b2
  have gu : roundGrowth 16 * (double sin cos exp pow pi).u = 332 * q / 9007199254740992 := by
    rw [hu]; unfold roundGrowth; rw [← hq]; ring
  rw [gu] at b1
  have m1 : 2 * q * (P - 1) * Z ≤ 2 * q * (2 * (332 * q / 9007199254740992 * n)) * Z :=
    mul_le_mul_of_nonneg_right (mul_le_mul_of_nonneg_left b1 (by linarith)) Z0
  have e1 : 2 * q * (2 * (332 * q / 9007199254740992 * n)) * Z = 22576 / 9007199254740992 * (n * Z) := by
    have : 2 * q * (2 * (332 * q / 9007199254740992 * n)) * Z = q ^ 2 * (1328 / 9007199254740992 * (n * Z)) := by ring
    rw [this, s17']; ring
  have F0 : 0 ≤ F := by linarith
  have m2 : 2 * q * (n * P * F) ≤ 2 * (21 / 5) * (n * 3 * F) :=
    mul_le_mul (by linarith) (mul_le_mul_of_nonneg_right (mul_le_mul_of_nonneg_left b2 n0) F0)
      (mul_nonneg (mul_nonneg n0 (by rw [hP]; exact pow_nonneg (by rw [gu]; positivity) n)) F0) (by norm_num)
  have m3 : 2 * q * D ≤ 2 * (21 / 5) * D := mul_le_mul_of_nonneg_right (by linarith) D0
  have m4 : n * Z ≤ n * (D + W) := mul_le_mul_of_nonneg_left r2 n0
  have m5 : n * D ≤ n * (1 / 9007199254740992 * W + 2 * tn * Q) := mul_le_mul_of_nonneg_left r1 n0
  have m6 := mul_le_mul_of_nonneg_left fl n0
  have nW := mul_nonneg n0 W0
  have nF := mul_nonneg n0 F0
  linarith

end Qbox.Props
