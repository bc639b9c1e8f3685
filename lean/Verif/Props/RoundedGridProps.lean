import Verif.Props.RoundedExample

/-! # Rounding errors: positions, the number of nodes and the clock (C73) -/

namespace Qbox.Props
open Qbox Scalar Spec

/-- The error of the product of a cell size and an index, divided by the cell size again. -/
theorem trip {A : Arith} {d : ℝ} (hd : 0 < d) (ht : A.tiny ≤ A.u * d) {k : ℤ} : |A.r (A.r (d * A.r k) / d) - k| ≤ 8 * A.u * (|(k : ℝ)| + 1) := by
  have u0 := A.u_nonneg
  have u1 := A.u_le
  have t0 := A.tiny_nonneg
  have t1 := A.tiny_le
  obtain ⟨u, hu⟩ : ∃ u, u = A.u := ⟨_, rfl⟩
  obtain ⟨T, hT⟩ : ∃ T, T = A.tiny := ⟨_, rfl⟩
  obtain ⟨K, hK⟩ : ∃ K, K = |(k : ℝ)| := ⟨_, rfl⟩
  have K0 : 0 ≤ K := by rw [hK]; positivity
  have a := A.near k
  rw [← hu] at u0 u1 t1 ht a ⊢
  rw [← hT] at t0 t1 ht a
  rw [← hK] at a ⊢
  -- index
  have b := A.near' (x := d * k) (y := d * A.r k) (B := d * K) (e := d * (u * K + T)) (by rw [abs_mul, abs_of_pos hd, hK])
    (by rw [← mul_sub, abs_mul, abs_of_pos hd]; exact mul_le_mul_of_nonneg_left a hd.le)
  rw [← hu, ← hT] at b
  have b' : |A.r (d * A.r k) / d - k| ≤ (u * K + T) + u * (K + (u * K + T)) + u := by
    rw [show A.r (d * A.r k) / d - k = (A.r (d * A.r k) - d * k) / d by field_simp, abs_div, abs_of_pos hd, div_le_iff₀ hd]
    refine b.trans ?_
    nlinarith
  have c := A.near' (x := (k : ℝ)) (y := A.r (d * A.r k) / d) (B := K) (by rw [hK]) b'
  rw [← hu, ← hT] at c
  refine c.trans ?_
  have p1 : u * K ≤ 1 / 1000 * K := mul_le_mul_of_nonneg_right u1 K0
  have p2 : u * (u * K) ≤ u * (1 / 1000 * K) := mul_le_mul_of_nonneg_left p1 u0
  have p3 : u * T ≤ u * u := mul_le_mul_of_nonneg_left t1 u0
  have p4 : u * u ≤ u * (1 / 1000) := mul_le_mul_of_nonneg_left u1 u0
  have p5 : u * (u * (u * K)) ≤ u * (u * (1 / 1000 * K)) := mul_le_mul_of_nonneg_left p2 u0
  have p6 : u * (u * T) ≤ u * (u * (1 / 1000)) := mul_le_mul_of_nonneg_left (p3.trans p4) u0
  have p7 : 0 ≤ u * K := mul_nonneg u0 K0
  nlinarith

/-- **C73**, positions. With rounding too, an index turned into a position and back is the same index, for all indices whose number of digits the
arithmetic can hold. -/
theorem C73_round_trip {A : Arith} (g : Grid (Rnd A)) (hx : 0 < g.dx.val) (ht : A.tiny ≤ A.u * g.dx.val) (i j : ℤ) (hi : 16 * A.u * (|(i : ℝ)| + 1) < 1)
    (hj : 16 * A.u * (|(j : ℝ)| + 1) < 1) : g.toGrid (g.toReal ⟨i, j⟩) = ⟨i, j⟩ := by
  have key : ∀ k : ℤ, 16 * A.u * (|(k : ℝ)| + 1) < 1 → roundAway (A.r (A.r (g.dx.val * A.r k) / g.dx.val)) = k := by
    intro k hk
    have := trip hx ht (k := k)
    exact roundAway_eq_of_abs_lt (by linarith)
  show (⟨roundAway (A.r (A.r (g.dx.val * A.r i) / g.dx.val)), roundAway (A.r (A.r (g.dx.val * A.r j) / g.dx.val))⟩ : V2 ℤ) = _
  rw [key i hi, key j hj]

/-- The same for double precision: up to an index of 5·10¹⁴. -/
theorem C73_round_trip_double (sin cos exp : ℝ → ℝ) (pow : ℝ → ℕ → ℝ) (pi : ℝ) (g : Grid (Rnd (double sin cos exp pow pi))) (hx : 2 ^ (-1022 : ℤ) ≤ g.dx.val)
    (i j : ℤ) (hi : |i| ≤ 5 * 10 ^ 14) (hj : |j| ≤ 5 * 10 ^ 14) : g.toGrid (g.toReal ⟨i, j⟩) = ⟨i, j⟩ := by
  have u : (double sin cos exp pow pi).u = 2 ^ (-53 : ℤ) := rfl
  have t : (double sin cos exp pow pi).tiny = 2 ^ (-1075 : ℤ) := rfl
  have key : ∀ k : ℤ, |k| ≤ 5 * 10 ^ 14 → 16 * (double sin cos exp pow pi).u * (|(k : ℝ)| + 1) < 1 := by
    intro k hk
    have : |(k : ℝ)| ≤ 5 * 10 ^ 14 := by exact_mod_cast hk
    rw [u, show (2 : ℝ) ^ (-53 : ℤ) = 1 / 9007199254740992 by norm_num]
    linarith
  refine C73_round_trip g (lt_of_lt_of_le (by positivity) hx) ?_ i j (key i hi) (key j hj)
  rw [u, t]
  refine le_trans (le_of_eq ?_) (mul_le_mul_of_nonneg_left hx (by positivity))
  rw [← zpow_add₀ (by norm_num)]
  norm_num

/-- **C73**, number of nodes. The computed number of nodes differs from the requested length in cells by less than one cell, up to rounding. -/
theorem C73_nodes_partial {A : Arith} (Lx Ly res : Rnd A) (pml : ℤ) :
    Lx.val * res.val - (A.u * |Lx.val * res.val| + A.tiny) ≤ (Grid.make Lx Ly res pml).Nx ∧
      ((Grid.make Lx Ly res pml).Nx : ℝ) < Lx.val * res.val + 1 + (A.u * |Lx.val * res.val| + A.tiny) ∧
    Ly.val * res.val - (A.u * |Ly.val * res.val| + A.tiny) ≤ (Grid.make Lx Ly res pml).Ny ∧
      ((Grid.make Lx Ly res pml).Ny : ℝ) < Ly.val * res.val + 1 + (A.u * |Ly.val * res.val| + A.tiny) := by
  have key : ∀ z : ℝ, z - (A.u * |z| + A.tiny) ≤ ⌈A.r z⌉ ∧ (⌈A.r z⌉ : ℝ) < z + 1 + (A.u * |z| + A.tiny) := by
    intro z
    have := abs_le.mp (A.near z)
    have a := Int.le_ceil (A.r z)
    have b := Int.ceil_lt_add_one (A.r z)
    constructor <;> linarith
  exact ⟨(key _).1, (key _).2, (key _).1, (key _).2⟩

/-- The grid is exact where the length in cells is a number of the arithmetic. -/
theorem C73_nodes_exact {A : Arith} (Lx Ly res : Rnd A) (pml : ℤ) (h : A.r (Lx.val * res.val) = Lx.val * res.val) :
    (Grid.make Lx Ly res pml).Nx = ⌈Lx.val * res.val⌉ := by
  show ⌈A.r (Lx.val * res.val)⌉ = _
  rw [h]

theorem toDouble_val {x : ℝ} {k n e : ℤ} (h1 : 2 ^ k ≤ |x|) (h2 : |x| < 2 ^ (k + 1)) (he : k - 52 = e) (hk : -1022 ≤ k) (hn : |(n : ℝ) - x / 2 ^ e| < 1 / 2) :
    toDouble x = n * 2 ^ e := by
  have hp : 0 < |x| := lt_of_lt_of_le (by positivity) h1
  have l1 : k ≤ Int.log 2 |x| := (Int.zpow_le_iff_le_log (b := 2) (by norm_num) hp).mp (by exact_mod_cast h1)
  have l2 : Int.log 2 |x| < k + 1 := (Int.lt_zpow_iff_log_lt (b := 2) (by norm_num) hp).mp (by exact_mod_cast h2)
  have hb : lastBit x = e := by unfold lastBit; omega
  unfold toDouble
  rw [hb, nearestEven_unique hn]

/-- **C73**, number of nodes: the literal `0.07` times `100` is more than seven, so the grid has one node more than the length asks for. -/
theorem C73_extra_node (Ly : Rnd dbl) (pml : ℤ) : (Grid.make (dbl.fl (7 / 100)) Ly (whole 100 (by norm_num)) pml).Nx = 8 ∧ ⌈(7 / 100 : ℝ) * 100⌉ = 7 := by
  constructor
  · show ⌈toDouble (toDouble (7 / 100) * ((100 : ℤ) : ℝ))⌉ = 8
    have a : toDouble (7 / 100) = ((5044031582654956 : ℤ) : ℝ) * 2 ^ (-56 : ℤ) :=
      toDouble_val (k := -4) (by norm_num) (by norm_num) (by norm_num) (by norm_num) (by rw [abs_lt]; constructor <;> norm_num)
    have b : toDouble (((5044031582654956 : ℤ) : ℝ) * 2 ^ (-56 : ℤ) * ((100 : ℤ) : ℝ)) = ((7881299347898369 : ℤ) : ℝ) * 2 ^ (-50 : ℤ) :=
      toDouble_val (k := 2) (by rw [abs_of_pos (by positivity)]; norm_num) (by rw [abs_of_pos (by positivity)]; norm_num) (by norm_num) (by norm_num)
        (by rw [abs_lt]; constructor <;> norm_num)
    rw [a, b, Int.ceil_eq_iff]
    constructor <;> norm_num
  · rw [show (7 / 100 : ℝ) * 100 = ((7 : ℤ) : ℝ) by norm_num, Int.ceil_intCast]

/-! ## The clock -/

theorem update_time {K : Type} [Scalar K] {c c' : Core K} {l l' : List (Source K)} (h : c.update l = .ok (c', l')) : c'.t = c.t + c.g.dt ∧ c'.g = c.g := by
  unfold Core.update at h
  obtain ⟨c1, h1, h⟩ := (Except.bind_ok ..).mp h
  obtain ⟨⟨l1, f⟩, -, h⟩ := (Except.bind_ok ..).mp h
  obtain ⟨c2, h2, h⟩ := (Except.bind_ok ..).mp h
  cases h
  have e1 : c1.t = c.t + c.g.dt ∧ c1.g = c.g := by
    unfold Core.stageE at h1
    simp only [Except.bind_ok] at h1
    obtain ⟨_, -, ⟨_, _⟩, -, ⟨_, _⟩, -, ⟨_, _⟩, -, ⟨_, _⟩, -, _, -, h1⟩ := h1
    cases h1
    exact ⟨rfl, rfl⟩
  have e2 : c'.t = c1.t ∧ c'.g = c1.g := by
    unfold Core.stageH at h2
    simp only [Except.bind_ok] at h2
    obtain ⟨_, -, _, -, ⟨_, _, _⟩, -, _, -, h2⟩ := h2
    cases h2
    exact ⟨rfl, rfl⟩
  exact ⟨e2.1.trans e1.1, e2.2.trans e1.2⟩

/-- Where the clock stands when it starts at zero and is advanced `n` times. -/
def ticks {K : Type} [Scalar K] (dt : K) : ℕ → K → K
  | 0, t => t
  | n + 1, t => ticks dt n (t + dt)

theorem ticks_last {K : Type} [Scalar K] (dt : K) : ∀ (n : ℕ) (t : K), ticks dt (n + 1) t = ticks dt n t + dt
  | 0, _ => rfl
  | n + 1, t => ticks_last dt n (t + dt)

theorem run_time {K : Type} [Scalar K] : ∀ (n : ℕ) {c c' : Core K} {l l' : List (Source K)}, c.run n l = .ok (c', l') → c'.t = ticks c.g.dt n c.t
  | 0, c, c', l, l', h => by cases h; rfl
  | n + 1, c, c', l, l', h => by
    unfold Core.run at h
    obtain ⟨⟨c1, l1⟩, h1, h⟩ := (Except.bind_ok ..).mp h
    obtain ⟨a, b⟩ := update_time h1
    rw [run_time n h, a, b]
    rfl

theorem ticks_error {A : Arith} (dt : Rnd A) (h : 0 ≤ dt.val) : ∀ n : ℕ, |(ticks dt n 0).val - n * dt.val| ≤ (1 + A.u) ^ n * (A.u * n ^ 2 * dt.val + n * A.tiny)
  | 0 => by simp [ticks]
  | n + 1 => by
    have ih := ticks_error dt h n
    have u0 := A.u_nonneg
    have t0 := A.tiny_nonneg
    rw [ticks_last, add_rnd]
    have n0 := Nat.cast_nonneg (α := ℝ) n
    obtain ⟨E, hE⟩ : ∃ E, E = (1 + A.u) ^ n * (A.u * n ^ 2 * dt.val + n * A.tiny) := ⟨_, rfl⟩
    rw [← hE] at ih
    have k := A.near' (x := ((n : ℝ) + 1) * dt.val) (y := (ticks dt n 0).val + dt.val) (B := ((n : ℝ) + 1) * dt.val) (e := E)
      (by rw [abs_of_nonneg (by positivity)]) (by rw [show (ticks dt n 0).val + dt.val - ((n : ℝ) + 1) * dt.val = (ticks dt n 0).val - n * dt.val by ring]; exact ih)
    push_cast
    refine k.trans ?_
    have p1 : 1 ≤ (1 + A.u) ^ (n + 1) := one_le_pow₀ (by linarith)
    have e1 : (1 + A.u) * E = (1 + A.u) ^ (n + 1) * (A.u * n ^ 2 * dt.val + n * A.tiny) := by rw [hE, pow_succ]; ring
    obtain ⟨P, hP⟩ : ∃ P, P = (1 + A.u) ^ (n + 1) := ⟨_, rfl⟩
    rw [← hP] at p1 e1 ⊢
    have q : A.u * ((n : ℝ) + 1) * dt.val + A.tiny ≤ P * (A.u * (2 * n + 1) * dt.val + A.tiny) := by
      have : A.u * ((n : ℝ) + 1) * dt.val ≤ A.u * (2 * n + 1) * dt.val := by
        refine mul_le_mul_of_nonneg_right (mul_le_mul_of_nonneg_left (by linarith) u0) h
      have w : 0 ≤ A.u * (2 * (n : ℝ) + 1) * dt.val + A.tiny := by positivity
      have := mul_le_mul_of_nonneg_right p1 w
      linarith
    linarith

/-- **C73**, clock. After `n` updates the time of a simulation that started at zero differs from `n` time steps by at most `3 u n` parts of itself,
plus the smallest numbers. -/
theorem C73_clock {A : Arith} (n : ℕ) (c c' : Core (Rnd A)) (l l' : List (Source (Rnd A))) (h : c.run n l = .ok (c', l')) (h0 : c.t = 0) (hd : 0 ≤ c.g.dt.val)
    (few : A.u * n ≤ 1) : |c'.t.val - n * c.g.dt.val| ≤ 3 * (A.u * n) * (n * c.g.dt.val) + 3 * n * A.tiny := by
  rw [run_time n h, h0]
  have t0 := A.tiny_nonneg
  have u0 := A.u_nonneg
  have n0 := Nat.cast_nonneg (α := ℝ) n
  refine (ticks_error c.g.dt hd n).trans ?_
  have := mul_le_mul_of_nonneg_right (pow_bounds u0 few).2 (by positivity : 0 ≤ A.u * (n : ℝ) ^ 2 * c.g.dt.val + n * A.tiny)
  linarith

/-- In double precision the clock is exact when the time step is a power of two. -/
theorem C73_clock_exact (sin cos exp : ℝ → ℝ) (pow : ℝ → ℕ → ℝ) (pi : ℝ) (n : ℕ) (hn : n < 2 ^ 53) (c c' : Core (Rnd (double sin cos exp pow pi)))
    (l l' : List (Source (Rnd (double sin cos exp pow pi)))) (h : c.run n l = .ok (c', l')) (h0 : c.t = 0) (k : ℤ) (hk : -1074 ≤ k)
    (hd : c.g.dt.val = 2 ^ k) : c'.t.val = n * c.g.dt.val := by
  rw [run_time n h, h0]
  clear h
  induction n with
  | zero => simp [ticks]
  | succ n ih =>
    rw [ticks_last, add_rnd, ih (by omega)]
    show toDouble _ = _
    have := toDouble_dyadic (n := (n : ℤ) + 1) (e := k) (by rw [abs_of_nonneg (by positivity)]; exact_mod_cast hn) hk
    push_cast at this ⊢
    rw [hd, ← this]
    congr 1
    ring

/-- The hypotheses are met: the grid of the example of C74, whose time step is one half. -/
example (c c' : Core (Rnd dbl)) (l l' : List (Source (Rnd dbl))) (hg : c.g = gDbl) (h : c.run (10 ^ 9) l = .ok (c', l')) (h0 : c.t = 0) :
    c'.t.val = 500000000 := by
  have d : c.g.dt.val = 2 ^ (-1 : ℤ) := by rw [hg, gDbl_dt, gDbl_dx]; norm_num
  have := C73_clock_exact Real.sin Real.cos Real.exp (fun x n => x ^ n) Real.pi (10 ^ 9) (by norm_num) c c' l l' h h0 (-1) (by norm_num) d
  rw [this, d]
  norm_num

example : gDbl.toGrid (gDbl.toReal ⟨19, 7⟩) = ⟨19, 7⟩ :=
  C73_round_trip_double Real.sin Real.cos Real.exp (fun x n => x ^ n) Real.pi gDbl (by
    rw [gDbl_dx]
    have : ((2 : ℝ) ^ (-1022 : ℤ)) ≤ 2 ^ (0 : ℤ) := zpow_le_zpow_right₀ (by norm_num) (by norm_num)
    rwa [zpow_zero] at this) 19 7 (by norm_num) (by norm_num)

end Qbox.Props
