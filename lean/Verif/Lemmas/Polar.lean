import Verif.Spec.PolarSpec
import Verif.Lemmas.Dispersive
import Verif.Lemmas.Converge
import Verif.Props.TotalErrorProps

/-! # Energy of an error in media with memory -/

namespace Qbox
open Scalar Spec Props

namespace Spec.Response

/-- Energy density that the medium stores in addition to the field. -/
noncomputable def store (E K : ℝ) : Response → ℝ
  | plain => 0
  | debye d t => (d * E - t * K) ^ 2 / (2 * d)
  | drude _ o => K ^ 2 / (2 * o ^ 2)

/-- The current that enters Ampère's law. -/
def flow (K : ℝ) : Response → ℝ
  | plain => 0
  | _ => K

/-- The law of one step with an extra term `q`. -/
def step (dt E E' K K' q : ℝ) : Response → Prop
  | plain => True
  | debye d t => t * (K' - K) / dt + (K' + K) / 2 = d * (E' - E) / dt + q
  | drude c o => (K' - K) / dt + c * (K' + K) / 2 = o ^ 2 * (E' + E) / 2 + q

noncomputable def weight : Response → ℝ
  | plain => 0
  | debye d _ => 1 / d
  | drude _ o => 1 / o ^ 2

theorem flow_sub (r : Response) (a b : ℝ) : r.flow (a - b) = r.flow a - r.flow b := by cases r <;> simp [flow]

theorem store_nonneg {r : Response} (h : r.Passive) (E K : ℝ) : 0 ≤ r.store E K := by
  cases r with
  | plain => exact le_rfl
  | debye d t => have := h.1; simp only [store]; positivity
  | drude c o => simp only [store]; positivity

theorem weight_nonneg {r : Response} (h : r.Passive) : 0 ≤ r.weight := by
  cases r with
  | plain => exact le_rfl
  | debye d t => have := h.1; simp only [weight]; positivity
  | drude c o => simp only [weight]; positivity

/-- The root of the stored energy is linear in field and current. -/
noncomputable def root (E K : ℝ) : Response → ℝ
  | plain => 0
  | debye d t => (d * E - t * K) / Real.sqrt (2 * d)
  | drude _ o => K / Real.sqrt (2 * o ^ 2)

theorem root_sq {r : Response} (h : r.Passive) (E K : ℝ) : r.root E K ^ 2 = r.store E K := by
  cases r with
  | plain => simp [root, store]
  | debye d t =>
    have := h.1
    simp only [root, store]
    rw [div_pow, Real.sq_sqrt (by positivity)]
  | drude c o =>
    simp only [root, store]
    rw [div_pow, Real.sq_sqrt (by positivity)]

theorem root_add (r : Response) (E K E' K' : ℝ) : r.root (E + E') (K + K') = r.root E K + r.root E' K' := by
  cases r <;> simp only [root] <;> ring

/-- Work done on the medium is stored or lost. -/
theorem work {r : Response} (h : r.Passive) {dt E E' K K' : ℝ} (hd : 0 < dt) (s : r.step dt E E' K K' 0) :
    r.store E' K' - r.store E K ≤ dt * ((r.flow K' + r.flow K) / 2 * ((E + E') / 2)) := by
  cases r with
  | plain => simp [store, flow]
  | debye δ τ =>
    obtain ⟨h1, h2⟩ := h
    simp only [store, flow, step, add_zero] at s ⊢
    have e : δ * E' - τ * K' = δ * E - τ * K + dt * ((K' + K) / 2) := by field_simp at s; linarith
    rw [e, div_sub_div_same, div_le_iff₀ (by positivity)]
    have e2 : δ * (E' - E) = τ * (K' - K) + dt * ((K' + K) / 2) := by linarith
    have key : dt * ((K' + K) / 2 * ((E + E') / 2)) * (2 * δ) - ((δ * E - τ * K + dt * ((K' + K) / 2)) ^ 2 - (δ * E - τ * K) ^ 2)
        = 2 * dt * τ * ((K' + K) / 2) ^ 2 := by
      linear_combination dt * ((K' + K) / 2) * e2
    have := mul_nonneg (mul_nonneg (mul_nonneg zero_le_two hd.le) h2.le) (sq_nonneg ((K' + K) / 2))
    linarith
  | drude γ ω =>
    obtain ⟨h1, h2⟩ := h
    simp only [store, flow, step, add_zero] at s ⊢
    have p3 : 0 < ω ^ 2 := by positivity
    have e : K' - K = dt * (ω ^ 2 * (E' + E) / 2 - γ * (K' + K) / 2) := by field_simp at s ⊢; linarith
    rw [div_sub_div_same, div_le_iff₀ (by positivity)]
    have key : dt * ((K' + K) / 2 * ((E + E') / 2)) * (2 * ω ^ 2) - (K' ^ 2 - K ^ 2) = 2 * dt * γ * ((K' + K) / 2) ^ 2 := by
      linear_combination - (K' + K) * e
    have := mul_nonneg (mul_nonneg (mul_nonneg zero_le_two hd.le) h1) (sq_nonneg ((K' + K) / 2))
    linarith

theorem self_bound {X dt y Z : ℝ} (h0 : 0 ≤ X) (h1 : X ≤ dt * y) (h2 : y ^ 2 ≤ Z * X) (hd : 0 ≤ dt) (hZ : 0 ≤ Z) : X ≤ dt ^ 2 * Z := by
  rcases h0.eq_or_lt with e | p
  · rw [← e]; positivity
  · have a : X ^ 2 ≤ (dt * y) ^ 2 := pow_le_pow_left₀ h0 h1 2
    have b := mul_le_mul_of_nonneg_left h2 (sq_nonneg dt)
    have c : X * X ≤ (dt ^ 2 * Z) * X := by nlinarith
    exact le_of_mul_le_mul_right c p

theorem solve_pair {A B C a b : ℝ} (h : 0 < A * B + C / 2) : ∃ x y : ℝ, A * x + y / 2 = a ∧ B * y - C * x = b := by
  refine ⟨(B * a - b / 2) / (A * B + C / 2), (A * b + C * a) / (A * B + C / 2), ?_, ?_⟩
  · rw [show A * ((B * a - b / 2) / (A * B + C / 2)) + (A * b + C * a) / (A * B + C / 2) / 2 = a * (A * B + C / 2) / (A * B + C / 2) by ring,
      mul_div_cancel_right₀ _ h.ne']
  · rw [show B * ((A * b + C * a) / (A * B + C / 2)) - C * ((B * a - b / 2) / (A * B + C / 2)) = b * (A * B + C / 2) / (A * B + C / 2) by ring,
      mul_div_cancel_right₀ _ h.ne']

/-- What extra terms `a` in Ampère's law and `b` in the law of the medium add to the field and the current in one step. -/
theorem push {r : Response} (h : r.Passive) {eps sig dt : ℝ} (he : 1 ≤ eps) (hs : 0 ≤ sig) (hd : 0 < dt) (a b : ℝ) :
    ∃ kE kK, (eps / dt + sig / 2) * kE + r.flow kK / 2 = a ∧ (∀ E E' K K' q, r.step dt E E' K K' q → r.step dt E (E' - kE) K (K' - kK) (q - b)) ∧
      eps * kE ^ 2 + 2 * r.store kE kK ≤ dt ^ 2 * (a ^ 2 + r.weight * b ^ 2) := by
  have ed : 0 < eps / dt := div_pos (by linarith) hd
  have c1 : 0 < eps / dt + sig / 2 := by linarith
  have cs : ∀ {kE v z : ℝ}, 0 ≤ z → (a * kE + b * v * z) ^ 2 ≤ (a ^ 2 + z * b ^ 2) * (eps * kE ^ 2 + z * v ^ 2) := by
    intro kE v z hz
    have q : (a * kE + b * v * z) ^ 2 ≤ (a ^ 2 + z * b ^ 2) * (kE ^ 2 + z * v ^ 2) := by
      nlinarith [mul_nonneg hz (sq_nonneg (a * v - b * kE))]
    refine q.trans (mul_le_mul_of_nonneg_left ?_ (by positivity))
    nlinarith [sq_nonneg kE]
  cases r with
  | plain =>
    refine ⟨a / (eps / dt + sig / 2), 0, ?_, fun _ _ _ _ _ _ => trivial, ?_⟩
    · simp only [flow]; rw [mul_div_cancel₀ _ c1.ne']; ring
    · simp only [store, weight]
      set k := a / (eps / dt + sig / 2) with hk
      have ek : (eps / dt + sig / 2) * k = a := mul_div_cancel₀ _ c1.ne'
      refine (le_of_eq (by ring)).trans ((self_bound (X := eps * k ^ 2) (y := a * k) (Z := a ^ 2) (by positivity) ?_ ?_ hd.le (sq_nonneg _)).trans (le_of_eq (by ring)))
      · have : dt * (a * k) = eps * k ^ 2 + dt * sig / 2 * k ^ 2 := by rw [← ek]; field_simp
        rw [this]
        have : 0 ≤ dt * sig / 2 * k ^ 2 := by positivity
        linarith
      · have := cs (kE := k) (v := 0) (z := 0) le_rfl
        simpa using this
  | debye δ t =>
    obtain ⟨h1, h2⟩ := h
    have c2 : 0 < t / dt + 1 / 2 := by positivity
    have c3 : 0 < δ / dt := by positivity
    have det : 0 < (eps / dt + sig / 2) * (t / dt + 1 / 2) + δ / dt / 2 := by positivity
    obtain ⟨x, y, e1, e2⟩ : ∃ x y : ℝ, (eps / dt + sig / 2) * x + y / 2 = a ∧ (t / dt + 1 / 2) * y - δ / dt * x = b := solve_pair det
    refine ⟨x, y, e1, fun E E' K K' q s => ?_, ?_⟩
    · simp only [step] at s ⊢
      rw [← e2]
      linear_combination s
    · simp only [store, weight]
      have e3 : y / 2 = (δ * x - t * y) / dt + b := by rw [← e2]; ring
      obtain ⟨P, hP⟩ : ∃ P, P = δ * x - t * y := ⟨_, rfl⟩
      rw [← hP] at e3 ⊢
      have ex : x = (P + t * y) / δ := by rw [hP]; field_simp; ring
      refine (le_of_eq ?_).trans (self_bound (X := eps * x ^ 2 + 1 / δ * P ^ 2) (y := a * x + b * (-P) * (1 / δ)) (by positivity) ?_ ?_ hd.le (by positivity))
      · field_simp
      · have key : dt * (a * x + b * (-P) * (1 / δ)) = eps * x ^ 2 + 1 / δ * P ^ 2 + dt * sig / 2 * x ^ 2 + dt * t * y ^ 2 / (2 * δ) := by
          have eb : b = y / 2 - P / dt := by linarith
          rw [← e1, eb]
          have : y / 2 * x = y / 2 * ((P + t * y) / δ) := by rw [← ex]
          field_simp at this ⊢
          linear_combination dt * this
        rw [key]
        have : 0 ≤ dt * sig / 2 * x ^ 2 := by positivity
        have : 0 ≤ dt * t * y ^ 2 / (2 * δ) := by positivity
        linarith
      · have := cs (kE := x) (v := -P) (z := 1 / δ) (by positivity)
        rwa [neg_sq] at this
  | drude c o =>
    obtain ⟨h1, h2⟩ := h
    have o2 : 0 < o ^ 2 := by positivity
    have c2 : 0 < 1 / dt + c / 2 := by positivity
    have det : 0 < (eps / dt + sig / 2) * (1 / dt + c / 2) + o ^ 2 / 2 / 2 := by positivity
    obtain ⟨x, y, e1, e2⟩ : ∃ x y : ℝ, (eps / dt + sig / 2) * x + y / 2 = a ∧ (1 / dt + c / 2) * y - o ^ 2 / 2 * x = b := solve_pair det
    refine ⟨x, y, e1, fun E E' K K' q s => ?_, ?_⟩
    · simp only [step] at s ⊢
      rw [← e2]
      linear_combination s
    · simp only [store, weight]
      refine (le_of_eq ?_).trans (self_bound (X := eps * x ^ 2 + 1 / o ^ 2 * y ^ 2) (y := a * x + b * y * (1 / o ^ 2)) (by positivity) ?_ ?_ hd.le (by positivity))
      · field_simp
      · have key : dt * (a * x + b * y * (1 / o ^ 2)) = eps * x ^ 2 + 1 / o ^ 2 * y ^ 2 + dt * sig / 2 * x ^ 2 + dt * c * y ^ 2 / (2 * o ^ 2) := by
          rw [← e1, ← e2]
          field_simp
          ring
        rw [key]
        have : 0 ≤ dt * sig / 2 * x ^ 2 := by positivity
        have : 0 ≤ dt * c * y ^ 2 / (2 * o ^ 2) := by positivity
        linarith
      · exact cs (by positivity)

end Spec.Response

/-- Energy of fields and media. -/
noncomputable def ptotal (g : Grid ℝ) (med : ℤ → ℤ → Simple ℝ) (res : ℤ → ℤ → Response) (f : Flds ℝ) (K : ℤ → ℤ → ℝ) (R : Box) : ℝ :=
  energy g med f R + g.dx ^ 2 * R.sum fun i j => (res i j).store (f.Ez.val i j) (K i j)

theorem sqrt_add_triangle {a b c a' b' c' : ℝ} (h : 0 ≤ b ∧ 0 ≤ c ∧ 0 ≤ b' ∧ 0 ≤ c') (h1 : Real.sqrt a ≤ Real.sqrt b + Real.sqrt c)
    (h2 : Real.sqrt a' ≤ Real.sqrt b' + Real.sqrt c') (ha : 0 ≤ a) (ha' : 0 ≤ a') : Real.sqrt (a + a') ≤ Real.sqrt (b + b') + Real.sqrt (c + c') := by
  obtain ⟨hb, hc, hb', hc'⟩ := h
  have q1 : a ≤ (Real.sqrt b + Real.sqrt c) ^ 2 := by
    have := pow_le_pow_left₀ (Real.sqrt_nonneg a) h1 2
    rwa [Real.sq_sqrt ha] at this
  have q2 : a' ≤ (Real.sqrt b' + Real.sqrt c') ^ 2 := by
    have := pow_le_pow_left₀ (Real.sqrt_nonneg a') h2 2
    rwa [Real.sq_sqrt ha'] at this
  have s1 := Real.sq_sqrt hb
  have s2 := Real.sq_sqrt hc
  have s3 := Real.sq_sqrt hb'
  have s4 := Real.sq_sqrt hc'
  have s5 := Real.sq_sqrt (add_nonneg hb hb')
  have s6 := Real.sq_sqrt (add_nonneg hc hc')
  have cs : Real.sqrt b * Real.sqrt c + Real.sqrt b' * Real.sqrt c' ≤ Real.sqrt (b + b') * Real.sqrt (c + c') := by
    refine abs_le_of_sq_le_sq' ?_ (by positivity) |>.2
    rw [mul_pow, s5, s6]
    nlinarith [sq_nonneg (Real.sqrt b * Real.sqrt c' - Real.sqrt b' * Real.sqrt c)]
  rw [Real.sqrt_le_left (by positivity)]
  nlinarith

section
variable {g : Grid ℝ} (hg : Lawful g) {med : ℤ → ℤ → Simple ℝ} {res : ℤ → ℤ → Response} {R : Box} (h1 : R.l ≤ R.r + 1) (h2 : R.b ≤ R.t + 1)
  (hr : ∀ i j, R.Mem i j → (res i j).Passive)

include hr in
theorem store_sum_nonneg (f : Flds ℝ) (K : ℤ → ℤ → ℝ) : 0 ≤ g.dx ^ 2 * R.sum fun i j => (res i j).store (f.Ez.val i j) (K i j) :=
  mul_nonneg (sq_nonneg _) (R.sum_nonneg fun i j h => Response.store_nonneg (hr i j h) _ _)

include hg h1 h2 hr in
theorem ptotal_triangle (he : ∀ i j, R.Mem i j → 1 ≤ (med i j).eps) {f h w : Flds ℝ} {A B C : ℤ → ℤ → ℝ} (m : Mix 1 1 f h w) (mK : ∀ i j, C i j = A i j + B i j)
    (q : FrameQuiet f R) (p : FrameQuiet h R) : Real.sqrt (ptotal g med res w C R) ≤ Real.sqrt (ptotal g med res f A R) + Real.sqrt (ptotal g med res h B R) := by
  refine sqrt_add_triangle ⟨energy_nonneg hg h1 h2 he q, energy_nonneg hg h1 h2 he p, store_sum_nonneg hr f A, store_sum_nonneg hr h B⟩
    (energy_triangle hg h1 h2 he m q p) ?_ (energy_nonneg hg h1 h2 he ?_) (store_sum_nonneg hr w C)
  · have t := sqrt_sum_triangle R (fun i j => (res i j).root (f.Ez.val i j) (A i j)) (fun _ _ => 0) (fun _ _ => 0)
      (fun i j => (res i j).root (h.Ez.val i j) (B i j)) (fun _ _ => 0) (fun _ _ => 0)
    rw [Real.sqrt_mul (sq_nonneg _), Real.sqrt_mul (sq_nonneg _), Real.sqrt_mul (sq_nonneg _), ← mul_add]
    refine mul_le_mul_of_nonneg_left ?_ (Real.sqrt_nonneg _)
    refine (le_of_eq ?_).trans (t.trans (le_of_eq ?_))
    · congr 1
      refine R.sum_congr fun i j hm => ?_
      rw [← Response.root_add, Response.root_sq (hr i j hm), m.Ez, mK]
      ring_nf
    · congr 2
      · refine R.sum_congr fun i j hm => ?_
        rw [Response.root_sq (hr i j hm)]; ring
      · refine R.sum_congr fun i j hm => ?_
        rw [Response.root_sq (hr i j hm)]; ring
  · exact m.quiet q p

set_option maxHeartbeats 800000 in
include hg h1 h2 hr in
/-- One step of two fields in media with memory that obey the laws with different extra terms: how much their distance grows. -/
theorem polar_steps {epsMax : ℝ} (he : ∀ i j, R.Mem i j → 1 ≤ (med i j).eps ∧ (med i j).eps ≤ epsMax) (hs : ∀ i j, R.Mem i j → 0 ≤ (med i j).conduc)
    {f f' s s' d d' : Flds ℝ} {K K' L L' pE pX pY pJ rE rX rY rJ : ℤ → ℤ → ℝ} {D : ℝ}
    (lf : Laws g med R f f' (fun i j => pE i j - ((res i j).flow (K' i j) + (res i j).flow (K i j)) / 2) pX pY)
    (ls : Laws g med R s s' (fun i j => rE i j - ((res i j).flow (L' i j) + (res i j).flow (L i j)) / 2) rX rY)
    (kf : ∀ i j, R.Mem i j → (res i j).step g.dt (f.Ez.val i j) (f'.Ez.val i j) (K i j) (K' i j) (pJ i j))
    (ks : ∀ i j, R.Mem i j → (res i j).step g.dt (s.Ez.val i j) (s'.Ez.val i j) (L i j) (L' i j) (rJ i j))
    (h0 : 1 ≤ epsMax) (hD : 0 ≤ D)
    (bd : g.dx ^ 2 * R.sum (fun i j => (rE i j - pE i j) ^ 2 + (rX i j - pX i j) ^ 2 + (rY i j - pY i j) ^ 2 + (res i j).weight * (rJ i j - pJ i j) ^ 2) ≤ D ^ 2)
    (m : Mix 1 (-1) f s d) (m' : Mix 1 (-1) f' s' d') (q : FrameQuiet d R) (q' : FrameQuiet d' R) :
    Real.sqrt (ptotal g med res d' (fun i j => K' i j - L' i j) R) ≤ Real.sqrt (ptotal g med res d (fun i j => K i j - L i j) R) +
      Real.sqrt ((epsMax + 2) / 2) * (g.dt * D) := by
  classical
  have hx := hg.dx
  have hdt : 0 < g.dt := by rw [hg.dt]; linarith
  have pick : ∀ i j, ∃ kE kK, R.Mem i j → ((med i j).eps / g.dt + (med i j).conduc / 2) * kE + (res i j).flow kK / 2 = - (rE i j - pE i j) ∧
      (∀ E E' K K' q, (res i j).step g.dt E E' K K' q → (res i j).step g.dt E (E' - kE) K (K' - kK) (q - (- (rJ i j - pJ i j)))) ∧
      (med i j).eps * kE ^ 2 + 2 * (res i j).store kE kK ≤ g.dt ^ 2 * ((- (rE i j - pE i j)) ^ 2 + (res i j).weight * (- (rJ i j - pJ i j)) ^ 2) := by
    intro i j
    by_cases h : R.Mem i j
    · obtain ⟨kE, kK, k⟩ := Response.push (hr i j h) (he i j h).1 (hs i j h) hdt (- (rE i j - pE i j)) (- (rJ i j - pJ i j))
      exact ⟨kE, kK, fun _ => k⟩
    · exact ⟨0, 0, fun h' => absurd h' h⟩
  choose k0 kK hk using pick
  set kE : ℤ → ℤ → ℝ := fun i j => if R.Mem i j then k0 i j else 0 with hkE
  have kin : ∀ i j, R.Mem i j → kE i j = k0 i j := fun i j h => if_pos h
  set kX : ℤ → ℤ → ℝ := fun i j => - (g.dt * (rX i j - pX i j))
  set kY : ℤ → ℤ → ℝ := fun i j => - (g.dt * (rY i j - pY i j))
  obtain ⟨u, mu⟩ := mix_exists 1 (-1) d' (kick R kE kX kY f)
  have kz : ∀ i j, ¬ R.Mem i j → kE i j = 0 := fun i j h => if_neg h
  have back : Mix 1 1 u (kick R kE kX kY f) d' := ⟨fun i j => by rw [mu.Ez]; ring, fun i j => by rw [mu.Hx]; ring, fun i j => by rw [mu.Hy]; ring⟩
  have kq : FrameQuiet (kick R kE kX kY f) R := kick_quiet kz f
  have qu : FrameQuiet u R := mu.quiet q' kq
  have w1 : ∀ i j, (kick R kE kX kY f).Ez.val i j = kE i j := fun _ _ => rfl
  have half : ∀ z : ℝ, g.dt * (z / g.dx) = z / 2 := fun z => by rw [hg.dt]; field_simp
  have e : ptotal g med res u (fun i j => K' i j - L' i j - kK i j) R ≤ ptotal g med res d (fun i j => K i j - L i j) R := by
    have law : ∀ i j, R.Mem i j →
        ConductiveLaw (med i j) g.dt (d.Ez.val i j) (u.Ez.val i j) (curlH d g.dx i j -
          ((res i j).flow (K' i j - L' i j - kK i j) + (res i j).flow (K i j - L i j)) / 2) ∧
        u.Hx.val i j = d.Hx.val i j - g.dt * ((u.Ez.val i (j + 1) - u.Ez.val i j) / g.dx) ∧
        u.Hy.val i j = d.Hy.val i j + g.dt * ((u.Ez.val (i + 1) j - u.Ez.val i j) / g.dx) := by
      intro i j h
      refine ⟨?_, ?_, ?_⟩
      · have a1 := lf.ampere i j h
        have a2 := ls.ampere i j h
        obtain ⟨k, -, -⟩ := hk i j h
        unfold ConductiveLaw curlH at a1 a2 ⊢
        rw [mu.Ez, m.Ez, m'.Ez, w1, kin i j h]
        simp only [m.Hx, m.Hy, Response.flow_sub]
        linear_combination a1 - a2 - k
      · have a1 := lf.faradayX i j h
        have a2 := ls.faradayX i j h
        rw [mu.Hx, m.Hx, m'.Hx, a1, a2]
        simp only [mu.Ez, m'.Ez, half]
        have w : (kick R kE kX kY f).Hx.val i j = kX i j - (kE i (j + 1) - kE i j) / 2 := if_pos h
        rw [w, w1, w1]
        simp only [kX]
        ring
      · have a1 := lf.faradayY i j h
        have a2 := ls.faradayY i j h
        rw [mu.Hy, m.Hy, m'.Hy, a1, a2]
        simp only [mu.Ez, m'.Ez, half]
        have w : (kick R kE kX kY f).Hy.val i j = kY i j + (kE (i + 1) j - kE i j) / 2 := if_pos h
        rw [w, w1, w1]
        simp only [kY]
        ring
    have b := balance_current hx hdt h1 h2 law
    rw [outflow_quiet q qu, add_zero] at b
    have ht : 0 ≤ heat g med d u R := mul_nonneg (sq_nonneg _) (R.sum_nonneg fun i j h => mul_nonneg (hs i j h) (sq_nonneg _))
    have st := R.sum_le (F := fun i j => (res i j).store (u.Ez.val i j) (K' i j - L' i j - kK i j) - (res i j).store (d.Ez.val i j) (K i j - L i j))
      (G := fun i j => g.dt * (((res i j).flow (K' i j - L' i j - kK i j) + (res i j).flow (K i j - L i j)) / 2 * meanEz d u i j)) fun i j h => by
        refine Response.work (hr i j h) hdt ?_
        obtain ⟨-, k, -⟩ := hk i j h
        have s1 := kf i j h
        have s2 := ks i j h
        have s3 : (res i j).step g.dt (d.Ez.val i j) (d'.Ez.val i j) (K i j - L i j) (K' i j - L' i j) (pJ i j - rJ i j) := by
          rw [m.Ez, m'.Ez]
          revert s1 s2
          generalize res i j = r
          cases r <;> simp only [Response.step]
          · simp
          · intro s1 s2; linear_combination s1 - s2
          · intro s1 s2; linear_combination s1 - s2
        have := k _ _ _ _ _ s3
        rw [mu.Ez, w1, kin i j h]
        rw [show pJ i j - rJ i j - - (rJ i j - pJ i j) = 0 by ring] at this
        rw [show 1 * d'.Ez.val i j + -1 * k0 i j = d'.Ez.val i j - k0 i j by ring]
        exact this
    rw [Box.sum_sub, Box.sum_mul] at st
    unfold ptotal
    have := mul_le_mul_of_nonneg_left st (sq_nonneg g.dx)
    have := mul_nonneg hdt.le ht
    linarith
  have t := ptotal_triangle hg h1 h2 hr (fun i j h => (he i j h).1) (C := fun i j => K' i j - L' i j) (A := fun i j => K' i j - L' i j - kK i j) (B := kK)
    back (fun i j => by ring) qu kq
  have sq2 : g.dx ^ 2 * R.sum (fun i j => g.dt ^ 2 * ((rE i j - pE i j) ^ 2 + (rX i j - pX i j) ^ 2 + (rY i j - pY i j) ^ 2 + (res i j).weight * (rJ i j - pJ i j) ^ 2)) ≤
      (g.dt * D) ^ 2 := by
    rw [Box.sum_mul]
    have := mul_le_mul_of_nonneg_left bd (sq_nonneg g.dt)
    linarith
  have ke := kick_energy hg h1 h2 (kE := kE) (kX := kX) (kY := kY) kz (A := g.dt * D) (by positivity) (by
      refine le_trans (mul_le_mul_of_nonneg_left (R.sum_le fun i j h => ?_) (sq_nonneg _)) sq2
      obtain ⟨-, -, k⟩ := hk i j h
      rw [kin i j h]
      have e1 := Response.store_nonneg (hr i j h) (k0 i j) (kK i j)
      have e2 : k0 i j ^ 2 ≤ (med i j).eps * k0 i j ^ 2 := by nlinarith [(he i j h).1, sq_nonneg (k0 i j)]
      rw [neg_sq, neg_sq] at k
      simp only [kX, kY]
      rw [neg_sq, neg_sq]
      linarith) f he h0
  have kp : Real.sqrt (ptotal g med res (kick R kE kX kY f) kK R) ≤ Real.sqrt ((epsMax + 2) / 2) * (g.dt * D) := by
    have e1 : energy g med (kick R kE kX kY f) R ≤ (epsMax + 1) / 2 * (g.dt * D) ^ 2 := by
      have p := energy_nonneg hg h1 h2 (fun i j h => (he i j h).1) kq
      have := pow_le_pow_left₀ (Real.sqrt_nonneg _) ke 2
      rwa [Real.sq_sqrt p, mul_pow, Real.sq_sqrt (by linarith)] at this
    have e2 : g.dx ^ 2 * R.sum (fun i j => (res i j).store ((kick R kE kX kY f).Ez.val i j) (kK i j)) ≤ 1 / 2 * (g.dt * D) ^ 2 := by
      have : R.sum (fun i j => (res i j).store ((kick R kE kX kY f).Ez.val i j) (kK i j)) ≤ R.sum fun i j => 1 / 2 * (g.dt ^ 2 * ((rE i j - pE i j) ^ 2 +
          (rX i j - pX i j) ^ 2 + (rY i j - pY i j) ^ 2 + (res i j).weight * (rJ i j - pJ i j) ^ 2)) := by
        refine R.sum_le fun i j h => ?_
        obtain ⟨-, -, k⟩ := hk i j h
        rw [w1, kin i j h]
        rw [neg_sq, neg_sq] at k
        have : 0 ≤ (med i j).eps * k0 i j ^ 2 := mul_nonneg (by linarith [(he i j h).1]) (sq_nonneg _)
        have : 0 ≤ g.dt ^ 2 * (rX i j - pX i j) ^ 2 := by positivity
        have : 0 ≤ g.dt ^ 2 * (rY i j - pY i j) ^ 2 := by positivity
        linarith
      rw [Box.sum_mul] at this
      have := mul_le_mul_of_nonneg_left this (sq_nonneg g.dx)
      linarith
    have : ptotal g med res (kick R kE kX kY f) kK R ≤ (epsMax + 2) / 2 * (g.dt * D) ^ 2 := by unfold ptotal; linarith
    refine (Real.sqrt_le_sqrt this).trans ?_
    rw [Real.sqrt_mul' _ (sq_nonneg _), Real.sqrt_sq (by positivity)]
  have := Real.sqrt_le_sqrt e
  linarith
end

end Qbox
