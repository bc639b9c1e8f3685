import Verif.Spec.DispersiveSpec
import Verif.Lemmas.DebyePair
import Verif.Lemmas.Energy
import Verif.Props.EnergyProps

/-! # Energy balance with polarization currents -/

namespace Qbox.Props
open Qbox Scalar Spec

/-- Work done on the poles of a Debye medium is stored or lost. -/
theorem debye_work {m : Debye ℝ} {dt E E' curl : ℝ} {J J' : ℕ → ℝ} (hd : 0 < dt) (h1 : ∀ p ∈ m.poles, 0 < p.tau) (h2 : ∀ p ∈ m.poles, 0 < p.dEps)
    (h : DebyeLaw m dt E E' curl J J') :
    debyeStore m E' J' - debyeStore m E J ≤ dt * ((∑ N ∈ Finset.range m.poles.length, (J' N + J N) / 2) * ((E + E') / 2)) := by
  unfold debyeStore
  rw [← Finset.sum_sub_distrib, Finset.sum_mul, Finset.mul_sum, Finset.sum_range fun N => dt * ((J' N + J N) / 2 * ((E + E') / 2))]
  refine Finset.sum_le_sum fun N _ => ?_
  have p1 : 0 < m.poles[N].tau := h1 _ (List.getElem_mem _)
  have p2 : 0 < m.poles[N].dEps := h2 _ (List.getElem_mem _)
  have law : m.poles[N].tau * (J' N - J N) / dt + (J' N + J N) / 2 = m.poles[N].dEps * (E' - E) / dt := h.pole N N.2
  generalize m.poles[N].tau = τ at *
  generalize m.poles[N].dEps = δ at *
  have e : δ * E' - τ * J' N = δ * E - τ * J N + dt * ((J' N + J N) / 2) := by field_simp at law; linarith
  rw [e, div_sub_div_same, div_le_iff₀ (by positivity)]
  have e2 : δ * (E' - E) = τ * (J' N - J N) + dt * ((J' N + J N) / 2) := by linarith
  have key : dt * ((J' N + J N) / 2 * ((E + E') / 2)) * (2 * δ) - ((δ * E - τ * J N + dt * ((J' N + J N) / 2)) ^ 2 - (δ * E - τ * J N) ^ 2)
      = 2 * dt * τ * ((J' N + J N) / 2) ^ 2 := by
    linear_combination dt * ((J' N + J N) / 2) * e2
  have := mul_nonneg (mul_nonneg (mul_nonneg zero_le_two hd.le) p1.le) (sq_nonneg ((J' N + J N) / 2))
  linarith

/-- Work done on the poles of a Drude medium is stored or lost. -/
theorem drude_work {m : Drude ℝ} {dt E E' curl : ℝ} {J J' : ℕ → ℝ} (hd : 0 < dt) (h1 : ∀ p ∈ m.poles, 0 ≤ p.gamma) (h2 : ∀ p ∈ m.poles, p.omega ≠ 0)
    (h : DrudeLaw m dt E E' curl J J') :
    drudeStore m J' - drudeStore m J ≤ dt * ((∑ N ∈ Finset.range m.poles.length, (J' N + J N) / 2) * ((E + E') / 2)) := by
  unfold drudeStore
  rw [← Finset.sum_sub_distrib, Finset.sum_mul, Finset.mul_sum, Finset.sum_range fun N => dt * ((J' N + J N) / 2 * ((E + E') / 2))]
  refine Finset.sum_le_sum fun N _ => ?_
  have p1 : 0 ≤ m.poles[N].gamma := h1 _ (List.getElem_mem _)
  have p2 : m.poles[N].omega ≠ 0 := h2 _ (List.getElem_mem _)
  have law : (J' N - J N) / dt + m.poles[N].gamma * (J' N + J N) / 2 = m.poles[N].omega ^ 2 * (E' + E) / 2 := h.pole N N.2
  generalize m.poles[N].gamma = γ at *
  generalize m.poles[N].omega = ω at *
  have p3 : 0 < ω ^ 2 := by positivity
  have e : J' N - J N = dt * (ω ^ 2 * (E' + E) / 2 - γ * (J' N + J N) / 2) := by field_simp at law ⊢; linarith
  rw [div_sub_div_same, div_le_iff₀ (by positivity)]
  have key : dt * ((J' N + J N) / 2 * ((E + E') / 2)) * (2 * ω ^ 2) - (J' N ^ 2 - J N ^ 2) = 2 * dt * γ * ((J' N + J N) / 2) ^ 2 := by
    linear_combination - (J' N + J N) * e
  have := mul_nonneg (mul_nonneg (mul_nonneg zero_le_two hd.le) p1) (sq_nonneg ((J' N + J N) / 2))
  linarith

/-- The balance of a rectangle in which currents `w` flow. -/
theorem balance_current {g : Grid ℝ} (hx : 0 < g.dx) (hd : 0 < g.dt) {med : ℤ → ℤ → Simple ℝ} {w : ℤ → ℤ → ℝ} {R : Box} (h1 : R.l ≤ R.r + 1)
    (h2 : R.b ≤ R.t + 1) {f f' : Flds ℝ} (law : ∀ i j, R.Mem i j →
      ConductiveLaw (med i j) g.dt (f.Ez.val i j) (f'.Ez.val i j) (curlH f g.dx i j - w i j) ∧
      f'.Hx.val i j = f.Hx.val i j - g.dt * ((f'.Ez.val i (j + 1) - f'.Ez.val i j) / g.dx) ∧
      f'.Hy.val i j = f.Hy.val i j + g.dt * ((f'.Ez.val (i + 1) j - f'.Ez.val i j) / g.dx)) :
    energy g med f' R - energy g med f R = - g.dt * (heat g med f f' R + outflow g f f' R + g.dx ^ 2 * R.sum fun i j => w i j * meanEz f f' i j) := by
  unfold energy heat outflow
  rw [← mul_sub, ← Box.sum_sub]
  have e : ∀ i j, R.Mem i j →
      ((med i j).eps * f'.Ez.val i j ^ 2 + f'.Hx.val i j * hxBack g f' i j + f'.Hy.val i j * hyBack g f' i j) / 2 -
      ((med i j).eps * f.Ez.val i j ^ 2 + f.Hx.val i j * hxBack g f i j + f.Hy.val i j * hyBack g f i j) / 2 =
      - g.dt * ((med i j).conduc * meanEz f f' i j ^ 2) + (- g.dt * (w i j * meanEz f f' i j) +
      (g.dt / g.dx * (f.Hy.val (i + 1 - 1) j * meanEz f f' (i + 1) j - f.Hy.val (i - 1) j * meanEz f f' i j) +
      - (g.dt / g.dx) * (f.Hx.val i (j + 1 - 1) * meanEz f f' i (j + 1) - f.Hx.val i (j - 1) * meanEz f f' i j))) := by
    intro i j h
    obtain ⟨l1, l2, l3⟩ := law i j h
    have b1 : hxBack g f' i j = f.Hx.val i j := by unfold hxBack; rw [l2]; ring
    have b2 : hyBack g f' i j = f.Hy.val i j := by unfold hyBack; rw [l3]; ring
    rw [b1, b2, l2, l3]
    unfold ConductiveLaw curlH at l1
    have l1' : (med i j).eps * (f'.Ez.val i j - f.Ez.val i j) = g.dt * ((f.Hy.val i j - f.Hy.val (i - 1) j) / g.dx -
        (f.Hx.val i j - f.Hx.val i (j - 1)) / g.dx - w i j - (med i j).conduc * (f'.Ez.val i j + f.Ez.val i j) / 2) := by
      rw [← l1]; field_simp; ring
    have l4 : (med i j).eps * f'.Ez.val i j ^ 2 - (med i j).eps * f.Ez.val i j ^ 2 = (g.dt * ((f.Hy.val i j - f.Hy.val (i - 1) j) / g.dx -
        (f.Hx.val i j - f.Hx.val i (j - 1)) / g.dx - w i j - (med i j).conduc * (f'.Ez.val i j + f.Ez.val i j) / 2)) * (f'.Ez.val i j + f.Ez.val i j) := by
      rw [← l1']; ring
    have l5 : (med i j).eps * f'.Ez.val i j ^ 2 = (med i j).eps * f.Ez.val i j ^ 2 + (g.dt * ((f.Hy.val i j - f.Hy.val (i - 1) j) / g.dx -
        (f.Hx.val i j - f.Hx.val i (j - 1)) / g.dx - w i j - (med i j).conduc * (f'.Ez.val i j + f.Ez.val i j) / 2)) * (f'.Ez.val i j + f.Ez.val i j) := by
      linarith
    rw [l5]
    unfold hxBack hyBack meanEz
    simp only [add_sub_cancel_right]
    ring
  rw [Box.sum_congr R e, Box.sum_add, Box.sum_add, Box.sum_add, Box.sum_mul, Box.sum_mul, Box.sum_mul, Box.sum_mul,
    Box.sum_x R h1 fun i j => f.Hy.val (i - 1) j * meanEz f f' i j, Box.sum_y R h2 fun i j => f.Hx.val i (j - 1) * meanEz f f' i j]
  simp only [add_sub_cancel_right]
  have s1 : ∑ j ∈ Finset.Icc R.b R.t, (-(meanEz f f' (R.r + 1) j * f.Hy.val R.r j) + meanEz f f' R.l j * f.Hy.val (R.l - 1) j) =
      - ∑ j ∈ Finset.Icc R.b R.t, (f.Hy.val R.r j * meanEz f f' (R.r + 1) j - f.Hy.val (R.l - 1) j * meanEz f f' R.l j) := by
    rw [← Finset.sum_neg_distrib]
    exact Finset.sum_congr rfl fun j _ => by ring
  have s2 : ∑ i ∈ Finset.Icc R.l R.r, (meanEz f f' i (R.t + 1) * f.Hx.val i R.t - meanEz f f' i R.b * f.Hx.val i (R.b - 1)) =
      ∑ i ∈ Finset.Icc R.l R.r, (f.Hx.val i R.t * meanEz f f' i (R.t + 1) - f.Hx.val i (R.b - 1) * meanEz f f' i R.b) :=
    Finset.sum_congr rfl fun i _ => by ring
  rw [s1, s2]
  field_simp
  ring

/-! ## The edge of the grid -/

/-- Where there is neither field nor current, and outside the grid, a Debye medium changes nothing. -/
theorem debye_still {g : Grid ℝ} {pE : Tensor ℝ} (hp : pE.Dim g.Nx g.Ny) {i j : ℤ} {l l' : List (String × DebyePol ℝ)} {E E' : Tensor ℝ}
    (hw : ∀ q ∈ l, q.2.WF g.Nx g.Ny) (hE : E.Dim g.Nx g.Ny) (z : E.val i j = 0) (zp : pE.val i j = 0)
    (hq : 0 ≤ i → i < g.Nx → 0 ≤ j → j < g.Ny → ∀ q ∈ l, ∀ N, 0 ≤ N → N < q.2.np → q.2.J.val i j N = 0)
    (h : mapUpdateJ (fun P Ez => P.updateJ g (some pE) Ez) l E = .ok (l', E')) :
    E'.val i j = 0 ∧ E'.Dim g.Nx g.Ny ∧ (0 ≤ i → i < g.Nx → 0 ≤ j → j < g.Ny → ∀ q ∈ l', ∀ N, 0 ≤ N → N < q.2.np → q.2.J.val i j N = 0) := by
  obtain ⟨a, b, d⟩ := mapUpdateJ_node _ (fun P : DebyePol ℝ => P.WF g.Nx g.Ny ∧ (0 ≤ i → i < g.Nx → 0 ≤ j → j < g.Ny → ∀ N, 0 ≤ N → N < P.np → P.J.val i j N = 0))
    (fun E => E.Dim g.Nx g.Ny ∧ E.val i j = 0) i j (by
      rintro P E ⟨w, q⟩ ⟨d, z⟩ P' E' hu
      by_cases hin : (0 ≤ i ∧ i < g.Nx) ∧ 0 ≤ j ∧ j < g.Ny
      · obtain ⟨⟨i0, i1⟩, j0, j1⟩ := hin
        obtain ⟨P2, E2, u, w2, d2, m2, n2, b2, v⟩ := DebyePol.updateJ_node w hp d
        rw [hu] at u
        obtain ⟨rfl, rfl⟩ := Prod.mk.inj (Except.ok.inj u)
        obtain ⟨v1, v2⟩ := v i j i0 i1 j0 j1
        have hz : ∀ n : ℕ, n ≤ P.np.toNat → ∑ M ∈ Finset.range n,
            (1 + (Arr.ofList (P.mat.poles.map (·.kappa g.dt))).val M) * P.J.val i j M = 0 := by
          intro n hn
          refine Finset.sum_eq_zero fun M hM => ?_
          rw [Finset.mem_range] at hM
          rw [q i0 i1 j0 j1 M (by positivity) (by omega), mul_zero]
        have e : E'.val i j = E.val i j := by rw [v1, hz _ le_rfl]; ring
        refine ⟨⟨w2, fun _ _ _ _ N h0 h1 => ?_⟩, ⟨d2, by rw [e, z]⟩, e⟩
        rw [n2] at h1
        obtain ⟨k, rfl⟩ := Int.eq_ofNat_of_zero_le h0
        have hk : k < P.np.toNat := by omega
        have := v2 k hk
        rw [q i0 i1 j0 j1 k h0 h1, hz _ hk, z, zp] at this
        rw [this]; ring
      · have hcl := DebyePol.updateJ_closed w hp d
        obtain ⟨P2, E2, u, w2, d2⟩ := DebyePol.updateJ_ok w hp d
        rw [hu] at hcl u
        obtain ⟨rfl, rfl⟩ := Prod.mk.inj (Except.ok.inj u)
        obtain ⟨-, e2⟩ := Prod.mk.inj (Except.ok.inj hcl)
        have e : E'.val i j = E.val i j := by
          rw [e2]
          simp only [Tensor.setv_val]
          rw [if_neg (by rw [mem_rect]; exact hin)]
        exact ⟨⟨w2, fun i0 i1 j0 j1 => absurd ⟨⟨i0, i1⟩, j0, j1⟩ hin⟩, ⟨d2, by rw [e, z]⟩, e⟩)
    l E (fun q h => ⟨hw q h, fun i0 i1 j0 j1 => hq i0 i1 j0 j1 q h⟩) ⟨hE, z⟩ l' E' h
  exact ⟨b.2, b.1, fun i0 i1 j0 j1 q hq => (a q hq).2 i0 i1 j0 j1⟩

/-- Same for a Drude medium. -/
theorem drude_still {g : Grid ℝ} {pE : Tensor ℝ} (hp : pE.Dim g.Nx g.Ny) {i j : ℤ} {l l' : List (String × DrudePol ℝ)} {E E' : Tensor ℝ}
    (hw : ∀ q ∈ l, q.2.WF g.Nx g.Ny) (hE : E.Dim g.Nx g.Ny) (z : E.val i j = 0) (zp : pE.val i j = 0)
    (hq : 0 ≤ i → i < g.Nx → 0 ≤ j → j < g.Ny → ∀ q ∈ l, ∀ N, 0 ≤ N → N < q.2.np → q.2.J.val i j N = 0)
    (h : mapUpdateJ (fun P Ez => P.updateJ g (some pE) Ez) l E = .ok (l', E')) :
    E'.val i j = 0 ∧ E'.Dim g.Nx g.Ny ∧ (0 ≤ i → i < g.Nx → 0 ≤ j → j < g.Ny → ∀ q ∈ l', ∀ N, 0 ≤ N → N < q.2.np → q.2.J.val i j N = 0) := by
  obtain ⟨a, b, d⟩ := mapUpdateJ_node _ (fun P : DrudePol ℝ => P.WF g.Nx g.Ny ∧ (0 ≤ i → i < g.Nx → 0 ≤ j → j < g.Ny → ∀ N, 0 ≤ N → N < P.np → P.J.val i j N = 0))
    (fun E => E.Dim g.Nx g.Ny ∧ E.val i j = 0) i j (by
      rintro P E ⟨w, q⟩ ⟨d, z⟩ P' E' hu
      by_cases hin : (0 ≤ i ∧ i < g.Nx) ∧ 0 ≤ j ∧ j < g.Ny
      · obtain ⟨⟨i0, i1⟩, j0, j1⟩ := hin
        obtain ⟨P2, E2, u, w2, d2, m2, n2, b2, v⟩ := DrudePol.updateJ_node w hp d
        rw [hu] at u
        obtain ⟨rfl, rfl⟩ := Prod.mk.inj (Except.ok.inj u)
        obtain ⟨v1, v2⟩ := v i j i0 i1 j0 j1
        have hz : ∀ n : ℕ, n ≤ P.np.toNat → ∑ M ∈ Finset.range n,
            (1 + (Arr.ofList (P.mat.poles.map (·.kappa g.dt))).val M) * P.J.val i j M = 0 := by
          intro n hn
          refine Finset.sum_eq_zero fun M hM => ?_
          rw [Finset.mem_range] at hM
          rw [q i0 i1 j0 j1 M (by positivity) (by omega), mul_zero]
        have e : E'.val i j = E.val i j := by rw [v1, hz _ le_rfl]; ring
        refine ⟨⟨w2, fun _ _ _ _ N h0 h1 => ?_⟩, ⟨d2, by rw [e, z]⟩, e⟩
        rw [n2] at h1
        obtain ⟨k, rfl⟩ := Int.eq_ofNat_of_zero_le h0
        have hk : k < P.np.toNat := by omega
        have := v2 k hk
        rw [q i0 i1 j0 j1 k h0 h1, hz _ hk, z, zp] at this
        rw [this]; ring
      · have hcl := DrudePol.updateJ_closed w hp d
        obtain ⟨P2, E2, u, w2, d2⟩ := DrudePol.updateJ_ok w hp d
        rw [hu] at hcl u
        obtain ⟨rfl, rfl⟩ := Prod.mk.inj (Except.ok.inj u)
        obtain ⟨-, e2⟩ := Prod.mk.inj (Except.ok.inj hcl)
        have e : E'.val i j = E.val i j := by
          rw [e2]
          simp only [Tensor.setv_val]
          rw [if_neg (by rw [mem_rect]; exact hin)]
        exact ⟨⟨w2, fun i0 i1 j0 j1 => absurd ⟨⟨i0, i1⟩, j0, j1⟩ hin⟩, ⟨d2, by rw [e, z]⟩, e⟩)
    l E (fun q h => ⟨hw q h, fun i0 i1 j0 j1 => hq i0 i1 j0 j1 q h⟩) ⟨hE, z⟩ l' E' h
  exact ⟨b.2, b.1, fun i0 i1 j0 j1 q hq => (a q hq).2 i0 i1 j0 j1⟩

/-- The edge of a closed grid stays without field and current if the Lorentz media do nothing there. -/
theorem closed_frame {c c' : Core ℝ} {E2 E3 E4 f} (hc : c.Std) (hT : c.g.T = 0) (S : c.Step [] c' [] E2 E3 E4 f) (ht : c.tfsf = none)
    (hl : ∀ x y, x = c.g.Nx - 1 ∨ y = c.g.Ny - 1 → E3.val x y = 0 → E4.val x y = 0) (hs : EdgeStill c) (q : FrameQuiet c.f (updatedNodes c.g)) :
    FrameQuiet c'.f (updatedNodes c'.g) ∧ EdgeStill c' ∧ c'.tfsf = none := by
  have nx : c.pml.Nx = c.g.Nx := hc.wf.pml.nx
  have ny : c.pml.Ny = c.g.Ny := hc.wf.pml.ny
  have nt : c.pml.par.T = 0 := by rw [hc.wf.pml.thk, hT]
  have tn : c'.tfsf = none := by
    have := S.tf
    rw [ht] at this
    exact (Except.ok.inj this).symm
  have hE1 : ∀ x y, ¬ (x, y) ∈ rect 1 (c.g.Nx - 1) 1 (c.g.Ny - 1) → c.E1.val x y = c.f.Ez.val x y := by
    intro x y h
    unfold Core.E1
    simp only [Tensor.setv_val, Tensor.upd, Pml.corrE, nx, ny, nt]
    rw [if_neg h, if_neg (by rw [mem_rect]; simp only; omega), if_neg (by rw [mem_rect]; simp only; omega), if_neg (by rw [mem_rect]; simp only; omega),
      if_neg (by rw [mem_rect]; simp only; omega)]
    ring
  have hX : ∀ x y, ¬ (x, y) ∈ rect 1 (c.g.Nx - 1) 1 (c.g.Ny - 1) → c'.f.Hx.val x y = c.f.Hx.val x y := by
    intro x y h
    rw [S.eX, tn]
    simp only [Tensor.upd, Pml.corrHx, Pml.afterE, nx, ny, nt, tfHx]
    rw [if_neg h, if_neg (by rw [mem_rect]; simp only; omega), if_neg (by rw [mem_rect]; simp only; omega), S.fX]
    simp [totalContrib]
  have hY : ∀ x y, ¬ (x, y) ∈ rect 1 (c.g.Nx - 1) 1 (c.g.Ny - 1) → c'.f.Hy.val x y = c.f.Hy.val x y := by
    intro x y h
    rw [S.eY, tn]
    simp only [Tensor.upd, Pml.corrHy, Pml.afterE, nx, ny, nt, tfHy]
    rw [if_neg h, if_neg (by rw [mem_rect]; simp only; omega), if_neg (by rw [mem_rect]; simp only; omega), S.fY]
    simp [totalContrib]
  have edge : ∀ x y, x = c.g.Nx - 1 ∨ y = c.g.Ny - 1 → c'.f.Ez.val x y = 0 ∧
      (0 ≤ x → x < c.g.Nx → 0 ≤ y → y < c.g.Ny → ∀ q ∈ c'.debye, ∀ N, 0 ≤ N → N < q.2.np → q.2.J.val x y N = 0) ∧
      (0 ≤ x → x < c.g.Nx → 0 ≤ y → y < c.g.Ny → ∀ q ∈ c'.drude, ∀ N, 0 ≤ N → N < q.2.np → q.2.J.val x y N = 0) := by
    intro x y h
    have z : c.f.Ez.val x y = 0 := by
      rcases h with rfl | rfl
      · have := q.right y; simp only [updatedNodes] at this; rw [← this]; congr 1; ring
      · have := q.top x; simp only [updatedNodes] at this; rw [← this]; congr 1; ring
    have z1 : c.E1.val x y = 0 := by rw [hE1 x y (by rw [mem_rect]; simp only; omega), z]
    obtain ⟨a1, a2, a3⟩ := debye_still hc.wf.f.Ez hc.wf.debye (E1_dim hc) z1 z (fun i0 i1 j0 j1 q hq N => hs.debye q hq x y N i0 i1 j0 j1 h) S.hd
    obtain ⟨b1, -, b3⟩ := drude_still hc.wf.f.Ez hc.wf.drude a2 a1 z (fun i0 i1 j0 j1 q hq N => hs.drude q hq x y N i0 i1 j0 j1 h) S.hr
    refine ⟨?_, a3, b3⟩
    rw [S.eE, S.fE, hl x y h b1, ht]
    simp [tfEz, totalContrib]
  refine ⟨⟨fun j => ?_, fun j => ?_, fun i => ?_, fun i => ?_⟩, ⟨?_, ?_⟩, tn⟩
  · rw [S.g, hY _ _ (by rw [mem_rect]; simp only [updatedNodes]; omega)]; exact q.left j
  · rw [S.g]; exact (edge _ _ (.inl (by simp only [updatedNodes]; ring))).1
  · rw [S.g, hX _ _ (by rw [mem_rect]; simp only [updatedNodes]; omega)]; exact q.bottom i
  · rw [S.g]; exact (edge _ _ (.inr (by simp only [updatedNodes]; ring))).1
  · intro q hq i j N
    rw [S.g]
    intro i0 i1 j0 j1 h
    exact (edge i j h).2.1 i0 i1 j0 j1 q hq N
  · intro q hq i j N
    rw [S.g]
    intro i0 i1 j0 j1 h
    exact (edge i j h).2.2 i0 i1 j0 j1 q hq N

/-- The edge of a closed grid with Debye and Drude media stays without field and current. -/
theorem closed_still {c c' : Core ℝ} {E2 E3 E4 f} (hc : c.Std) (hT : c.g.T = 0) (S : c.Step [] c' [] E2 E3 E4 f) (ht : c.tfsf = none)
    (hl : c.lorentz = []) (hs : EdgeStill c) (q : FrameQuiet c.f (updatedNodes c.g)) :
    FrameQuiet c'.f (updatedNodes c'.g) ∧ EdgeStill c' ∧ c'.tfsf = none ∧ c'.lorentz = [] := by
  have e4 := S.hl
  rw [hl] at e4
  have e4' := Prod.mk.inj (Except.ok.inj e4)
  obtain ⟨h1, h2, h3⟩ := closed_frame hc hT S ht (fun x y _ h => by rw [← e4'.2]; exact h) hs q
  exact ⟨h1, h2, h3, e4'.1.symm⟩

/-- The step of the magnetic field in any medium. -/
theorem magnetic_any {c c' : Core ℝ} {srcs srcs' E2 E3 E4 f} (hc : c.Std) (h : c.Step srcs c' srcs' E2 E3 E4 f) {i j : ℤ}
    (hb : Beyond c.g i j) (hs : ∀ s ∈ srcs, ∀ C, ¬ Drives c.g s C ⟨i, j⟩) (ht : c.tfsf = none) {k : MatKind ℝ}
    (hm : HasMedium c.f k c.g.dt i j) :
    c'.f.Hx.val i j = c.f.Hx.val i j - c.g.dt * ((c'.f.Ez.val i (j + 1) - c'.f.Ez.val i j) / c.g.dx) ∧
    c'.f.Hy.val i j = c.f.Hy.val i j + c.g.dt * ((c'.f.Ez.val (i + 1) j - c'.f.Ez.val i j) / c.g.dx) := by
  obtain ⟨b1, b2, b3, b4⟩ := hb
  have hT := hc.thick
  have nx : c.pml.Nx = c.g.Nx := hc.wf.pml.nx
  have ny : c.pml.Ny = c.g.Ny := hc.wf.pml.ny
  have nt : c.pml.par.T = c.g.T := hc.wf.pml.thk
  have tn : c'.tfsf = none := by
    have := h.tf
    rw [ht] at this
    exact (Except.ok.inj this).symm
  have hin : (i, j) ∈ rect 1 (c.g.Nx - 1) 1 (c.g.Ny - 1) := by rw [mem_rect]; simp only; omega
  obtain ⟨-, -, q3, q4⟩ := h.coef
  have da : MatKind.Da c.g.dt k = 1 := by cases k <;> simp [MatKind.Da, Simple.Da]
  have db : MatKind.Db c.g.dt k = c.g.dt := by cases k <;> simp [MatKind.Db, Simple.Db]
  constructor
  · rw [h.eX, tn, h.eE]
    simp only [Tensor.upd, Pml.corrHx, Pml.afterE, nx, ny, nt, tfHx]
    rw [if_pos hin, if_neg (by rw [mem_rect]; simp only; omega), if_neg (by rw [mem_rect]; simp only; omega)]
    simp only [hxVal, hc.sc.khdy, q3, q4, hm.Da, hm.Db, h.fX, totalContrib_zero fun s hs' => hs s hs' .Hx, da, db]
    ring
  · rw [h.eY, tn, h.eE]
    simp only [Tensor.upd, Pml.corrHy, Pml.afterE, nx, ny, nt, tfHy]
    rw [if_pos hin, if_neg (by rw [mem_rect]; simp only; omega), if_neg (by rw [mem_rect]; simp only; omega)]
    simp only [hyVal, hc.sc.khdx, q3, q4, hm.Da, hm.Db, h.fY, totalContrib_zero fun s hs' => hs s hs' .Hy, da, db]
    ring

theorem get_split {α : Type} {l b a : List α} {x : α} (h : l = b ++ x :: a) : l[b.length]? = some x := by rw [h]; simp

/-- One step at a node of a passive medium: the medium stays, and the current that the medium adds to Ampère's law does the work that is stored. -/
theorem filled_step {c c' : Core ℝ} {E2 E3 E4 f} (hc : c.Std) (u : c.update [] = .ok (c', [])) (S : c.Step [] c' [] E2 E3 E4 f) (ht : c.tfsf = none)
    (hl : c.lorentz = []) {i j : ℤ} (hb : Beyond c.g i j) {m : Medium} (hp : m.Passive) (hm : Filled c i j m) :
    Filled c' i j m ∧ (∃ w, ConductiveLaw m.base c.g.dt (c.f.Ez.val i j) (c'.f.Ez.val i j) (curlH c.f c.g.dx i j - w) ∧
      stored c' i j m - stored c i j m ≤ c.g.dt * (w * meanEz c.f c'.f i j)) ∧
      c'.f.Hx.val i j = c.f.Hx.val i j - c.g.dt * ((c'.f.Ez.val i (j + 1) - c'.f.Ez.val i j) / c.g.dx) ∧
      c'.f.Hy.val i j = c.f.Hy.val i j + c.g.dt * ((c'.f.Ez.val (i + 1) j - c'.f.Ez.val i j) / c.g.dx) := by
  have un : Undriven c [] i j := ⟨by simp, by rw [ht]; simp⟩
  cases m with
  | simple m =>
    obtain ⟨h1, -, h3⟩ := S.inSimple hc hb un hl hm
    refine ⟨h1, ⟨0, ?_, ?_⟩, magnetic_any hc S hb (by simp) ht hm.medium⟩
    · rw [sub_zero]
      exact ((C24_unique m c.g.dt hc.dt_pos (by linarith [hp.1]) hp.2).1 _ _ _).mpr h3
    · simp [stored]
  | debye k m =>
    obtain ⟨n, P, b, a, h1, rfl, rfl⟩ := hm
    have hp' : DebyePassive P.mat := hp
    by_cases two : P.mat.poles.length = 2
    · obtain ⟨p, q, e⟩ := List.length_eq_two.mp two
      obtain ⟨P', b', a', k2, k3, k4, k5, k6⟩ := S.inDebye hc hb un h1
      have g : PairGood ⟨P.mat.epsInf, p, q, c.g.dt⟩ := ⟨by show 0 < P.mat.epsInf; linarith [hp'.epsInf], hp'.tau p (by rw [e]; simp), hp'.tau q (by rw [e]; simp),
        hp'.dEps p (by rw [e]; simp), hp'.dEps q (by rw [e]; simp), hc.dt_pos⟩
      have cb : P.mat.Cb c.g.dt = 2 * c.g.dt / (DebyePair.mk P.mat.epsInf p q c.g.dt).D := by
        simp only [Debye.Cb, e, DebyePair.D, List.map_cons, List.map_nil, sumL, List.foldl_cons, List.foldl_nil, ofInt_real]
        push_cast
        ring
      have s0 := h1.strength 0 (by omega)
      have s1 := h1.strength 1 (by omega)
      have b0 : P.beta.val i j 0 = p.beta c.g.dt := by simpa [e] using s0
      have b1 : P.beta.val i j 1 = q.beta c.g.dt := by simpa [e] using s1
      have q0 : (Arr.ofList (P.mat.poles.map (·.kappa c.g.dt))).val 0 = p.kappa c.g.dt := by simp [e, Arr.ofList]
      have q1 : (Arr.ofList (P.mat.poles.map (·.kappa c.g.dt))).val 1 = q.kappa c.g.dt := by simp [e, Arr.ofList]
      have j0 := k6 0 (by omega)
      have j1 := k6 1 (by omega)
      simp only [two, Finset.sum_range_succ, Finset.sum_range_zero, zero_add, Nat.cast_zero, Nat.cast_one, b0, b1, q0, q1, cb] at k5 j0 j1
      refine ⟨⟨n, P', b', a', k2, k3, k4⟩, ⟨curlH c.f c.g.dx i j - P.mat.epsInf * (c'.f.Ez.val i j - c.f.Ez.val i j) / c.g.dt, ?_, ?_⟩,
        magnetic_any hc S hb (by simp) ht h1.medium⟩
      · unfold ConductiveLaw Medium.base
        simp only
        ring
      · have e1 : stored c i j (.debye b.length P.mat) = (DebyePair.mk P.mat.epsInf p q c.g.dt).store (c.f.Ez.val i j) (P.J.val i j 0) (P.J.val i j 1) := by
          simp only [stored]; rw [get_split h1.entry]
          simp only [debyeKeep, e]; rfl
        have e2 : stored c' i j (.debye b.length P.mat) = (DebyePair.mk P.mat.epsInf p q c.g.dt).store (c'.f.Ez.val i j) (P'.J.val i j 0) (P'.J.val i j 1) := by
          simp only [stored]; rw [← k3, get_split k2.entry, S.g]
          simp only [debyeKeep, e]; rfl
        rw [e1, e2]
        exact pair_work g (by rw [k5]) (by rw [j0, k5]; ring) (by rw [j1, k5])
    have one : P.mat.poles.length ≤ 1 := by have := hp'.few; omega
    have keep : ∀ dt E J, debyeKeep P.mat dt E J = debyeStore P.mat E J := by
      intro dt E J
      unfold debyeKeep
      split
      · rename_i p q e; rw [e] at two; simp at two
      · rfl
    obtain ⟨c2, l2, P', b', a', k1, k2, k3, k4, k5⟩ := C25_single_partial c hc [] (by simp) i j hb un n P b a h1 ⟨by linarith [hp'.epsInf], fun p h => ⟨hp'.tau p h, (hp'.dEps p h).le⟩⟩ one
    rw [u] at k1
    obtain ⟨rfl, -⟩ := Prod.mk.inj (Except.ok.inj k1)
    refine ⟨⟨n, P', b', a', k2, k3, k4⟩, ⟨∑ N ∈ Finset.range P.mat.poles.length, (P'.J.val i j N + P.J.val i j N) / 2, ?_, ?_⟩, magnetic_any hc S hb (by simp) ht h1.medium⟩
    · have := k5.ampere
      unfold ConductiveLaw Medium.base
      simp only
      linarith
    · have e1 : stored c i j (.debye b.length P.mat) = debyeStore P.mat (c.f.Ez.val i j) fun N => P.J.val i j N := by
        simp only [stored]; rw [get_split h1.entry]; exact keep _ _ _
      have e2 : stored c' i j (.debye b.length P.mat) = debyeStore P.mat (c'.f.Ez.val i j) fun N => P'.J.val i j N := by
        simp only [stored]; rw [← k3, get_split k2.entry]; exact keep _ _ _
      rw [e1, e2]
      exact debye_work hc.dt_pos hp'.tau hp'.dEps k5
  | drude k m =>
    obtain ⟨n, P, b, a, h1, rfl, rfl⟩ := hm
    have hp' : DrudePassive P.mat := hp
    obtain ⟨c2, l2, P', b', a', k1, k2, k3, k4, k5⟩ := C26_single_partial c hc [] (by simp) i j hb un n P b a h1 ⟨by linarith [hp'.epsInf], hp'.gamma⟩ hp'.single
    rw [u] at k1
    obtain ⟨rfl, -⟩ := Prod.mk.inj (Except.ok.inj k1)
    refine ⟨⟨n, P', b', a', k2, k3, k4⟩, ⟨∑ N ∈ Finset.range P.mat.poles.length, (P'.J.val i j N + P.J.val i j N) / 2, ?_, ?_⟩, magnetic_any hc S hb (by simp) ht h1.medium⟩
    · have := k5.ampere
      unfold ConductiveLaw Medium.base
      simp only
      linarith
    · have e1 : stored c i j (.drude b.length P.mat) = drudeStore P.mat fun N => P.J.val i j N := by
        simp only [stored]; rw [get_split h1.entry]
      have e2 : stored c' i j (.drude b.length P.mat) = drudeStore P.mat fun N => P'.J.val i j N := by
        simp only [stored]; rw [← k3, get_split k2.entry]
      rw [e1, e2]
      exact drude_work hc.dt_pos hp'.gamma hp'.omega k5

theorem stored_nonneg {c : Core ℝ} (hd : 0 < c.g.dt) {i j : ℤ} {m : Medium} (hp : m.Passive) : 0 ≤ stored c i j m := by
  cases m with
  | simple m => exact le_rfl
  | debye k m =>
    have hp' : DebyePassive m := hp
    simp only [stored]
    split
    · unfold debyeKeep
      split
      · rename_i p q e
        exact pair_nonneg ⟨by show 0 < m.epsInf; linarith [hp'.epsInf], hp'.tau p (by rw [e]; simp), hp'.tau q (by rw [e]; simp), hp'.dEps p (by rw [e]; simp),
          hp'.dEps q (by rw [e]; simp), hd⟩ _ _ _
      · unfold debyeStore
        refine Finset.sum_nonneg fun N _ => ?_
        have : 0 < m.poles[N].dEps := hp'.dEps _ (List.getElem_mem _)
        positivity
    · exact le_rfl
  | drude k m =>
    simp only [stored]
    split
    · unfold drudeStore
      exact Finset.sum_nonneg fun N _ => by positivity
    · exact le_rfl

theorem Medium.Passive.base_eps {m : Medium} (h : m.Passive) : 1 ≤ m.base.eps ∧ 0 ≤ m.base.conduc := by
  cases m with
  | simple m => exact h
  | debye k m => exact ⟨DebyePassive.epsInf h, le_rfl⟩
  | drude k m => exact ⟨DrudePassive.epsInf h, le_rfl⟩

/-- One step of a closed grid: the energy of fields and media does not grow. -/
theorem total_step {c c' : Core ℝ} {E2 E3 E4 f} (hc : c.Std) (u : c.update [] = .ok (c', [])) (S : c.Step [] c' [] E2 E3 E4 f) (ht : c.tfsf = none)
    {med : ℤ → ℤ → Medium} {R : Box} (h1 : R.l ≤ R.r + 1) (h2 : R.b ≤ R.t + 1) (hp : Dispersive c med R) (q : FrameQuiet c.f R) (q' : FrameQuiet c'.f R) :
    total c' med R ≤ total c med R := by
  have node := fun i j h => (filled_step hc u S ht hp.lorentz (hp.beyond i j h) (hp.passive i j h) (hp.filled i j h)).2
  have cur : ∀ i j, ∃ w, R.Mem i j → ConductiveLaw (med i j).base c.g.dt (c.f.Ez.val i j) (c'.f.Ez.val i j) (curlH c.f c.g.dx i j - w) ∧
      stored c' i j (med i j) - stored c i j (med i j) ≤ c.g.dt * (w * meanEz c.f c'.f i j) := by
    intro i j
    by_cases h : R.Mem i j
    · obtain ⟨w, hw⟩ := (node i j h).1
      exact ⟨w, fun _ => hw⟩
    · exact ⟨0, fun h' => absurd h' h⟩
  choose w hw using cur
  have b := balance_current hc.law.dx hc.dt_pos (med := fun i j => (med i j).base) (w := w) h1 h2 (f := c.f) (f' := c'.f) fun i j h => ⟨(hw i j h).1, (node i j h).2⟩
  rw [outflow_quiet q q', add_zero] at b
  have hh : 0 ≤ heat c.g (fun i j => (med i j).base) c.f c'.f R := by
    unfold heat
    refine mul_nonneg (sq_nonneg _) ?_
    have := R.sum_le (F := fun _ _ => 0) (G := fun i j => (med i j).base.conduc * meanEz c.f c'.f i j ^ 2) fun i j h =>
      mul_nonneg (Medium.Passive.base_eps (hp.passive i j h)).2 (sq_nonneg _)
    refine le_trans (le_of_eq ?_) this
    unfold Box.sum; simp
  have hs := R.sum_le (F := fun i j => stored c' i j (med i j) - stored c i j (med i j)) (G := fun i j => c.g.dt * (w i j * meanEz c.f c'.f i j))
    fun i j h => (hw i j h).2
  rw [Box.sum_sub, Box.sum_mul] at hs
  unfold total
  rw [S.g]
  have := mul_le_mul_of_nonneg_left hs (sq_nonneg c.g.dx)
  have := mul_nonneg hc.dt_pos.le hh
  linarith

end Qbox.Props
