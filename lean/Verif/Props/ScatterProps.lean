import Verif.Lemmas.Scatter
import Verif.Lemmas.LorentzRun
import Verif.Props.IncidentProps
import Verif.Props.DrivenWaveProps

/-!
# C100: programs with an incident wave compute the incident and the scattered wave
-/

namespace Qbox.Props
open Scalar Spec

set_option linter.unusedSectionVars false
set_option linter.unusedSimpArgs false

/-- **C100** (exact). In exact arithmetic, in a program with objects of simple media inside the total-field region, the fields are at all steps and nodes the sum of two:
the incident wave in empty space, and the fields of a program with the same objects and without incident wave, with one more point source at each node
inside the objects. What these sources add is the current that the incident wave would need in the medium `m` of the node beyond that in the vacuum,
`(ε - 1) dE/dt + σ E`. -/
theorem C100_exact (g : Grid ℝ) (hg : g.Wide) (hl : Lawful g) (hT : g.T = 0 ∨ 2 ≤ g.T) (S : Scene) (f : S.Fits g)
    (hm : ∀ o ∈ S.objs, ∃ m, o.mat.kind = .simple m) (w : Vol ℝ × TimeProfile ℝ) (hw : S.wave = some w) (hin : AllWithin g w.1 S.objs) :
    ∃ K : ℤ → ℤ → ℝ → ℝ,
      (∀ n, ∃ c u d, S.run g n = .ok c ∧ (⟨[], [], some w⟩ : Scene).run g n = .ok u ∧
        (⟨S.objs, S.srcs ++ currents g S.objs K, none⟩ : Scene).run g n = .ok d ∧
        ∀ i j, c.f.Ez.val i j = u.f.Ez.val i j + d.f.Ez.val i j ∧ c.f.Hx.val i j = u.f.Hx.val i j + d.f.Hx.val i j ∧
          c.f.Hy.val i j = u.f.Hy.val i j + d.f.Hy.val i j) ∧
      ∀ n u u' i j m, (⟨[], [], some w⟩ : Scene).run g n = .ok u → (⟨[], [], some w⟩ : Scene).run g (n + 1) = .ok u' → Upd g i j →
        Covers S.objs (g.toReal ⟨i, j⟩) m → 0 < m.eps → 0 ≤ m.conduc →
        (m.eps / g.dt + m.conduc / 2) * K i j ((n + 1) * g.dt) =
          - ((m.eps - 1) * ((u'.f.Ez.val i j - u.f.Ez.val i j) / g.dt) + m.conduc * ((u'.f.Ez.val i j + u.f.Ez.val i j) / 2)) := by
  obtain ⟨c0, c1, b⟩ := built hg hl hT f.box f.clear
  have g1 : c1.g = g := by rw [← b.g0, b.twin.g]
  have fw : TfsfFits g w.1 := fits_wave f w hw
  have b0 : c0.Bare := ⟨b.empty0.debye, b.empty0.drude, b.empty0.lorentz⟩
  have b1 : c1.Bare := insertAll_bare S.objs hm b0 b.ins
  have z1 := b.silent1 hl f.clear
  have s1 : (c1.setTfsf w.1 w.2).Std := View.Std_setTfsf b.std1 (by rw [g1]; exact fw)
  have s0 : (c0.setTfsf w.1 w.2).Std := View.Std_setTfsf b.std0 (by rw [b.g0]; exact fw)
  have ge1 : (c1.setTfsf w.1 w.2).g = g := g1
  have ge0 : (c0.setTfsf w.1 w.2).g = g := b.g0
  obtain ⟨cs, ls, E2, E3, E4, fs, R⟩ := Core.trace s0 [] (by simp)
  set K0 := currentOf (c1.setTfsf w.1 w.2) cs ls with hK
  have nin : ∀ p ∈ nodesIn g S.objs, InGrid g p := fun p hp => (mem_nodesIn.mp hp).1
  have fitc : ∀ K : ℤ → ℤ → ℝ → ℝ, ∀ s ∈ currents g S.objs K, Spec.Fits g s := by
    intro K s h
    obtain ⟨p, hp, rfl⟩ := List.mem_map.mp h
    exact currents_fit hl (nin p hp)
  obtain ⟨ds, ms, A, B, D, gs, Q⟩ := Core.trace s1 ([] ++ currents g S.objs K0) (by rw [ge1]; exact fitc K0)
  have TW := currents_run (c := c0.setTfsf w.1 w.2) (c0 := c1.setTfsf w.1 w.2) s0 s1
    ⟨b.twin.g.symm, b.twin.t.symm, b.twin.sc.symm, b.twin.pml.symm, b.twin.Ez.symm, b.twin.Hx.symm, b.twin.Hy.symm⟩
    (by show c0.t = 0; rw [b.twin.t, b.t])
    (by show some (Tfsf.make c1.g w.2 w.1 c1.g.dt) = some (Tfsf.make c0.g w.2 w.1 c0.g.dt); rw [b.twin.g]) ⟨b1.debye, b1.drude, b1.lorentz⟩ b0.lorentz
    (by
      rw [ge0]
      intro i j i0 i1 j0 j1
      obtain ⟨a1, a2⟩ := b.magnetic i j i0 i1 j0 j1
      exact ⟨a1.symm, a2.symm⟩) (nodesIn_nodup g S.objs)
    (fun p hp => by rw [ge0]; exact nin p hp)
    (by
      rw [ge0]
      intro i j i0 i1 j0 j1 h
      obtain ⟨k1, k2, k3⟩ := b.off i j i0 i1 j0 j1 h
      exact ⟨⟨fun q hq => by rw [show (c0.setTfsf w.1 w.2).debye = c0.debye from rfl, b0.debye] at hq; simp at hq,
        fun q hq => by rw [show (c0.setTfsf w.1 w.2).drude = c0.drude from rfl, b0.drude] at hq; simp at hq⟩, k2.symm, k3.symm⟩) R (by rw [ge0]; exact Q)
  refine ⟨fun i j t => - K0 i j t, fun n => ?_, ?_⟩
  · have T := (TW n).1
    obtain ⟨u1, v, d1, k1, p1, p2, p3, p4⟩ := wave_plus (tp := w.2) b.std1 z1 b1 (by rw [g1]; exact fw) (l := currents g S.objs K0) (by rw [g1]; exact fitc K0) n
    obtain ⟨u1', V, D1, k1', q1, q2, q3, q4⟩ := wave_plus (tp := w.2) b.std1 z1 b1 (by rw [g1]; exact fw) (l := S.srcs) (by rw [g1]; exact f.srcs) n
    obtain ⟨V', v', d, r1, r2, r3, r4⟩ := sources_minus b.std1 (by rw [g1]; exact hl) z1 b1 (srcs := S.srcs) (by rw [g1]; exact f.srcs) (nodes := nodesIn g S.objs)
      (by rw [g1]; exact nin) K0 n
    rw [g1] at r2 r3
    rw [p1] at q1
    obtain ⟨rfl, -⟩ := Prod.mk.inj (Except.ok.inj q1)
    rw [q2] at r1
    obtain rfl := Except.ok.inj r1
    rw [show (nodesIn g S.objs).map (current g K0) = currents g S.objs K0 from rfl, p2] at r2
    obtain rfl := Except.ok.inj r2
    have qn := Q.run n
    rw [List.nil_append, p3] at qn
    obtain ⟨rfl, -⟩ := Prod.mk.inj (Except.ok.inj qn)
    have rS := b.run S.srcs (some w) (c := D1) q3
    refine ⟨D1, cs n, d.1, by rw [← rS, ← hw], b.run0 [] (some w) (R.run n), b.run _ none (c := d.1) (l := d.2) r3, fun i j => ?_⟩
    obtain ⟨e1, e2, e3⟩ := p4 i j
    obtain ⟨e1', e2', e3'⟩ := q4 i j
    obtain ⟨h1, h2, h3⟩ := r4 i j
    rw [h1, h2, h3, e1', e2', e3', ← T.Ez, ← T.Hx, ← T.Hy, e1, e2, e3]
    refine ⟨by ring, by ring, by ring⟩
  · intro n u u' i j m h h' hu hcov he hsg
    rw [b.run0 [] (some w) (R.run n)] at h
    rw [b.run0 [] (some w) (R.run (n + 1))] at h'
    obtain rfl := Except.ok.inj h
    obtain rfl := Except.ok.inj h'
    have gn : (cs n).g = g := by rw [R.g, ge0]
    obtain ⟨⟨o, ho1, ho2⟩, hs⟩ := hcov
    have oi : (g.toGrid w.1.a).y < j ∧ j < (g.toGrid w.1.b).y := by
      obtain ⟨x, y, e, k, -⟩ := ho1
      exact (hin o (by rw [e]; simp) i j k).2.2
    have un : Undriven (c0.setTfsf w.1 w.2) [] i j := by
      refine ⟨by simp, ?_⟩
      intro v hv
      obtain rfl := Option.some.inj (show some (Tfsf.make c0.g w.2 w.1 c0.g.dt) = some v from hv)
      rw [b.g0]
      rintro ⟨-, k⟩
      have k' : j = (g.toGrid w.1.a).y ∨ j = (g.toGrid w.1.b).y := k
      omega
    have uN := Trace.undriven R un n
    have i0 : 0 ≤ i := by have := hu.1; omega
    have i1 : i < g.Nx := by have := hu.2.1; omega
    have j0 : 0 ≤ j := by have := hu.2.2.1; omega
    have j1 : j < g.Ny := by have := hu.2.2.2; omega
    have md := (b.medium i j i0 i1 j0 j1).1 o ho1
    rw [ho2] at md
    obtain ⟨X, x1, x2⟩ := E1_split (c := cs n) (c0 := c1.setTfsf w.1 w.2) (by rw [gn]; exact hu)
    have E' : (cs (n + 1)).f.Ez.val i j = (cs n).E1.val i j := by
      rw [(R.step n).eE, (R.step n).fE, tfEz_undriven uN, totalContrib_zero uN.src, ((R.step n).bare (R.bare ⟨b0.debye, b0.drude, b0.lorentz⟩ n)).2]
      ring
    have Kv : K0 i j ((n + 1) * g.dt) = (cs (n + 1)).f.Ez.val i j - ((c1.setTfsf w.1 w.2).inMediaOf (cs n)).E1.val i j := by
      rw [hK]
      unfold currentOf
      have fl : ⌊((n : ℝ) + 1) * g.dt / (c1.setTfsf w.1 w.2).g.dt⌋₊ = n + 1 := by
        rw [ge1, show ((n : ℝ) + 1) * g.dt = n * g.dt + g.dt by ring]; exact floor_step hl n
      simp only [fl, Nat.add_sub_cancel]
      rw [tfEz_undriven uN, totalContrib_zero (by rw [ge1, ← gn]; exact uN.src)]
      ring
    obtain ⟨a1, a2, -⟩ := R.coef n
    have e0 := b.empty0.medium i j i0 (by rw [b.g0]; exact i1) j0 (by rw [b.g0]; exact j1)
    have Ca1 : (c1.setTfsf w.1 w.2).f.Ca.val i j = m.Ca g.dt := md.Ca
    have Cb1 : (c1.setTfsf w.1 w.2).f.Cb.val i j = m.Cb g.dt := md.Cb
    have Ca0 : (cs n).f.Ca.val i j = 1 := by
      rw [a1, show (c0.setTfsf w.1 w.2).f = c0.f from rfl, e0.Ca]; simp [MatKind.Ca, Simple.Ca, Qbox.vacuum]
    have Cb0 : (cs n).f.Cb.val i j = g.dt := by
      rw [a2, show (c0.setTfsf w.1 w.2).f = c0.f from rfl, e0.Cb, b.g0]; simp [MatKind.Cb, Simple.Cb, Qbox.vacuum]
    rw [Ca0, Cb0, ← E'] at x1
    rw [Ca1, Cb1] at x2
    show _ * -K0 i j _ = _
    rw [Kv, x2]
    have hd : 0 < g.dt := by rw [hl.dt]; have := hl.dx; linarith
    have k0 : 0 < 2 * m.eps + m.conduc * g.dt := by positivity
    have e2 : (2 * m.eps : ℝ) ≠ 0 := by positivity
    have e3 : 1 + m.conduc * g.dt / (2 * m.eps) ≠ 0 := by positivity
    have ca : m.Ca g.dt = (2 * m.eps - m.conduc * g.dt) / (2 * m.eps + m.conduc * g.dt) := by
      simp only [Simple.Ca, ofInt_real]
      push_cast
      rw [div_eq_div_iff e3 k0.ne']
      field_simp
    have cb : m.Cb g.dt = 2 * g.dt / (2 * m.eps + m.conduc * g.dt) := by
      simp only [Simple.Cb, ofInt_real]
      push_cast
      rw [div_eq_div_iff e3 k0.ne']
      field_simp
    rw [ca, cb, x1]
    field_simp
    ring

theorem top_of_node {objs : List (Object ℝ)} {p : V2 ℝ} (hp : ∀ o ∈ objs, PassiveObject o) (h : ∃ o ∈ objs, o.inside p = true) :
    ∃ o m, o ∈ objs ∧ TopAt objs p o ∧ o.mat.kind = .simple m ∧ 1 ≤ m.eps ∧ 0 ≤ m.conduc ∧ Covers objs p m := by
  rcases C09_total objs p with hn | ⟨o, ho⟩
  · obtain ⟨o, h1, h2⟩ := h
    rw [hn o h1] at h2
    exact absurd h2 (by simp)
  · have mem : o ∈ objs := by
      obtain ⟨x, y, e, -⟩ := ho
      rw [e]; simp
    obtain ⟨m, hm, e1, e2⟩ := hp o mem
    refine ⟨o, m, mem, ho, hm, e1, e2, ⟨o, ho, hm⟩, fun o' h' _ => ?_⟩
    obtain ⟨m', h, -⟩ := hp o' h'
    exact ⟨m', h⟩

theorem rate_bound {x d D dt M Q E : ℝ} (h1 : |x - d| ≤ E * dt) (hE : E ≤ Q) (h2 : |d - 2 * (dt / 2) * D| ≤ 2 * M * (dt / 2) ^ 3) (hd : 0 < dt) (hM : 0 ≤ M) :
    |x / dt - D| ≤ Q + M * dt ^ 2 := by
  have : |x - dt * D| ≤ (Q + M * dt ^ 2) * dt := by
    have k := mul_le_mul_of_nonneg_right hE hd.le
    have p3 : 0 ≤ M * dt ^ 3 := by positivity
    have e : 2 * M * (dt / 2) ^ 3 = M * dt ^ 3 / 4 := by ring
    have e' : 2 * (dt / 2) * D = dt * D := by ring
    have e2 : (Q + M * dt ^ 2) * dt = Q * dt + M * dt ^ 3 := by ring
    rw [e, e'] at h2
    rw [e2]
    rw [abs_le] at h1 h2 ⊢
    constructor <;> linarith [h1.1, h1.2, h2.1, h2.2]
  rw [show x / dt - D = (x - dt * D) / dt by field_simp, abs_div, abs_of_pos hd, div_le_iff₀ hd]
  exact this

theorem mean_bound {x x' a a' m dt M Q E E' : ℝ} (h : |x - a| ≤ E) (h' : |x' - a'| ≤ E') (hE : E ≤ Q) (hE' : E' ≤ Q) (h2 : |a' + a - 2 * m| ≤ 2 * M * (dt / 2) ^ 2)
    (hM : 0 ≤ M) : |(x' + x) / 2 - m| ≤ Q + M * dt ^ 2 := by
  have p2 : 0 ≤ M * dt ^ 2 := by positivity
  have e : 2 * M * (dt / 2) ^ 2 = M * dt ^ 2 / 2 := by ring
  rw [e] at h2
  rw [abs_le] at h h' h2 ⊢
  constructor <;> linarith [h.1, h.2, h'.1, h'.2, h2.1, h2.2]

/-- The sources at the nodes of the objects are the induced current. -/
theorem induced_carries {g : Grid ℝ} (hl : Lawful g) (hT : 0 ≤ g.T) {objs : List (Object ℝ)} (hp : ∀ o ∈ objs, PassiveObject o) {epsMax sigMax : ℝ} (he : AtMost epsMax objs)
    (hs : ConductAtMost sigMax objs) {eps sig : ℝ → ℝ → ℝ} (hmed : MediumOf objs eps sig) {vol : Vol ℝ} {s : ℝ → ℝ} (hr : ClearRegion g (g.toGrid vol.a) (g.toGrid vol.b))
    (hin : AllWithin g vol objs) {M : ℝ} (hsm : SmoothStart s M) {e h : ℕ → ℤ → ℝ} (W : LineWave s g.dt ((g.toGrid vol.b).y - (g.toGrid vol.a).y + 5) e h)
    {K : ℤ → ℤ → ℝ → ℝ} (hK : ∀ (n : ℕ) i j m, Upd g i j → Covers objs (g.toReal ⟨i, j⟩) m → 0 < m.eps → 0 ≤ m.conduc →
      (g.toGrid vol.a).x ≤ i → i ≤ (g.toGrid vol.b).x → (g.toGrid vol.a).y ≤ j → j ≤ (g.toGrid vol.b).y →
      (m.eps / g.dt + m.conduc / 2) * K i j ((n + 1) * g.dt) =
        - ((m.eps - 1) * ((e (n + 1) (j - (g.toGrid vol.a).y + 3) - e n (j - (g.toGrid vol.a).y + 3)) / g.dt) +
          m.conduc * ((e (n + 1) (j - (g.toGrid vol.a).y + 3) + e n (j - (g.toGrid vol.a).y + 3)) / 2)))
    {srcs : List (Source ℝ)} {J : ℝ → ℝ → ℝ → ℝ} {τ δ : ℝ} (hk : Spec.Carries g srcs eps sig J τ δ) :
    Spec.Carries g (srcs ++ currents g objs K) eps sig (fun t x y => J t x y + induced eps sig s (entry g vol) t x y) τ
      (δ + inducedError M g.dt τ (rows g vol) (epsMax - 1 + sigMax)) := by
  have hd : 0 < g.dt := by rw [hl.dt]; linarith [hl.dx]
  have M0 := hsm.nonneg
  have e1 : 1 ≤ epsMax := he.1
  have s1 : 0 ≤ sigMax := hs.1
  have r0 : 0 ≤ rows g vol := by
    unfold rows
    have : 0 ≤ (g.toGrid vol.b).y - (g.toGrid vol.a).y + 1 := by have := hr.y; omega
    exact_mod_cast this
  obtain ⟨x1, x2⟩ := hr.edge
  obtain ⟨hb1, hb2, hb3, hb4⟩ := hr.hi
  constructor
  · intro q hq C i j hD
    rcases List.mem_append.mp hq with k | k
    · exact hk.electric q k C i j hD
    · obtain ⟨p, hp', rfl⟩ := List.mem_map.mp k
      rw [currents_drives hl] at hD
      obtain ⟨rfl, rfl⟩ := hD
      obtain ⟨-, o, ho, hi⟩ := mem_nodesIn.mp hp'
      obtain ⟨k1, k2, k3, k4⟩ := hin o ho i j hi
      refine ⟨rfl, ?_⟩
      omega
  · intro n i j i0 i1 j0 j1 ht
    have c0 := hk.node n i j i0 i1 j0 j1 ht
    have add : addedE g (srcs ++ currents g objs K) (((n : ℝ) + 1) * g.dt) i j = addedE g srcs (((n : ℝ) + 1) * g.dt) i j
        + addedE g (currents g objs K) (((n : ℝ) + 1) * g.dt) i j := by
      unfold addedE
      rw [List.map_append, List.sum_append]
    have same : addedE g (currents g objs K) (((n : ℝ) + 1) * g.dt) i j = totalContrib g (((n : ℝ) + 1) * g.dt) ((nodesIn g objs).map (current g K)) .Ez ⟨i, j⟩ := rfl
    have real : g.toReal ⟨i, j⟩ = ⟨i * g.dx, j * g.dx⟩ := by simp [Grid.toReal, mul_comm]
    rw [add, same, mul_add]
    have τ0 : 0 ≤ τ := le_trans (by positivity) ht
    have new : |(eps (i * g.dx) (j * g.dx) / g.dt + sig (i * g.dx) (j * g.dx) / 2) *
        totalContrib g (((n : ℝ) + 1) * g.dt) ((nodesIn g objs).map (current g K)) .Ez ⟨i, j⟩ +
        induced eps sig s (entry g vol) ((n + 1 / 2) * g.dt) (i * g.dx) (j * g.dx)| ≤ inducedError M g.dt τ (rows g vol) (epsMax - 1 + sigMax) := by
      by_cases hn : (⟨i, j⟩ : V2 ℤ) ∈ nodesIn g objs
      · rw [currents_at hl (nodesIn_nodup g objs) hn]
        obtain ⟨-, o', ho', hi'⟩ := mem_nodesIn.mp hn
        obtain ⟨k1, k2, k3, k4⟩ := hin o' ho' i j hi'
        obtain ⟨o, m, mo, top, om, m1, m2, cov⟩ := top_of_node hp ⟨o', ho', hi'⟩
        obtain ⟨q1, q2⟩ := hmed.object _ o m top om
        rw [real] at q1 q2
        have me : m.eps ≤ epsMax := he.2 o mo m om
        have ms : m.conduc ≤ sigMax := hs.2 o mo m om
        unfold induced
        simp only at q1 q2 ⊢
        rw [q1, q2, hK n i j m ⟨i0, by omega, j0, by omega⟩ cov (by linarith) m2 k1 k2 k3.le k4.le]
        set en := e n (j - (g.toGrid vol.a).y + 3)
        set en' := e (n + 1) (j - (g.toGrid vol.a).y + 3)
        have a0 := line_E hl hr W hsm n k3.le k4.le
        have a1 := line_E hl hr W hsm (n + 1) k3.le k4.le
        have a2 := line_step hl hr W hsm n k3.le k4.le
        set c := ((n : ℝ) + 1 / 2) * g.dt - (j * g.dx - entry g vol) with hc
        have p0 : planeE s (entry g vol) (n * g.dt) (j * g.dx) = s (c - g.dt / 2) := by unfold planeE; congr 1; rw [hc]; ring
        have p1 : planeE s (entry g vol) ((n + 1) * g.dt) (j * g.dx) = s (c + g.dt / 2) := by unfold planeE; congr 1; rw [hc]; ring
        have p2 : planeE s (entry g vol) ((n + 1 / 2) * g.dt) (j * g.dx) = s c := rfl
        have p3 : planeEt s (entry g vol) ((n + 1 / 2) * g.dt) (j * g.dx) = deriv s c := rfl
        push_cast at a1
        rw [p0] at a0 a2
        rw [p1] at a1 a2
        rw [p2, p3]
        have b1 := hsm.central c (g.dt / 2) (by positivity)
        have b2 := hsm.mean c (g.dt / 2) (by positivity)
        set Q := 80 * τ * ((rows g vol + 1) * (M * g.dt ^ 3)) with hQ
        have le1 : incidentError M g.dt (n + 1) (rows g vol) ≤ Q := by
          unfold incidentError
          have pp : 0 ≤ 80 * ((rows g vol + 1) * (M * g.dt ^ 3)) := by positivity
          have := mul_le_mul_of_nonneg_right ht pp
          rw [hQ]
          push_cast
          linarith [this]
        have le0 : incidentError M g.dt n (rows g vol) ≤ Q := by
          refine le_trans ?_ le1
          unfold incidentError
          push_cast
          have pp : 0 ≤ 80 * ((rows g vol + 1) * (M * g.dt ^ 4)) := by positivity
          linarith
        have Q0 : 0 ≤ Q := by positivity
        have d1 : |(en' - en) / g.dt - deriv s c| ≤ Q + M * g.dt ^ 2 := rate_bound a2 le1 b1 hd M0
        have d2 : |(en' + en) / 2 - s c| ≤ Q + M * g.dt ^ 2 := mean_bound a0 a1 le0 le1 b2 M0
        have fin : -((m.eps - 1) * ((en' - en) / g.dt) + m.conduc * ((en' + en) / 2)) + ((m.eps - 1) * deriv s c + m.conduc * s c) =
            -((m.eps - 1) * ((en' - en) / g.dt - deriv s c) + m.conduc * ((en' + en) / 2 - s c)) := by ring
        rw [fin, abs_neg]
        refine (abs_add_le _ _).trans ?_
        rw [abs_mul, abs_mul, abs_of_nonneg (by linarith : 0 ≤ m.eps - 1), abs_of_nonneg m2]
        have w1 := mul_le_mul (by linarith : m.eps - 1 ≤ epsMax - 1) d1 (abs_nonneg _) (by linarith)
        have w2 := mul_le_mul ms d2 (abs_nonneg _) s1
        unfold inducedError
        rw [← hQ]
        linarith
      · rw [currents_not hl fun _ => hn]
        have vac : ∀ o ∈ objs, o.inside (g.toReal ⟨i, j⟩) = false := by
          intro o ho
          cases hi : o.inside (g.toReal ⟨i, j⟩) with
          | false => rfl
          | true => exact absurd (mem_nodesIn.mpr ⟨⟨by simp only; omega, by simp only; omega, by simp only; omega, by simp only; omega⟩, o, ho, hi⟩) hn
        obtain ⟨q1, q2⟩ := hmed.vacuum _ vac
        rw [real] at q1 q2
        unfold induced inducedError
        simp only at q1 q2
        rw [q1, q2]
        simp only [mul_zero, sub_self, zero_mul, add_zero, abs_zero]
        have : 0 ≤ epsMax - 1 + sigMax := by linarith
        positivity
    have := abs_add_le ((eps (i * g.dx) (j * g.dx) / g.dt + sig (i * g.dx) (j * g.dx) / 2) * addedE g srcs (((n : ℝ) + 1) * g.dt) i j +
      J ((n + 1 / 2) * g.dt) (i * g.dx) (j * g.dx)) ((eps (i * g.dx) (j * g.dx) / g.dt + sig (i * g.dx) (j * g.dx) / 2) *
        totalContrib g (((n : ℝ) + 1) * g.dt) ((nodesIn g objs).map (current g K)) .Ez ⟨i, j⟩ +
        induced eps sig s (entry g vol) ((n + 1 / 2) * g.dt) (i * g.dx) (j * g.dx))
    refine le_trans (le_of_eq ?_) (this.trans (add_le_add c0 new))
    congr 1
    ring

/-- **C100** In exact arithmetic, a program with a total-field region in a domain without absorbing layer solves the scattering problem: objects of simple media in
the region, a signal that starts smoothly, and a scattered wave `w` that solves Maxwell's equations in the media of the objects with the current that the incident
plane wave induces in them and the current of the sources. The fields of the program differ from the sum of the plane wave and the scattered wave inside the
region, and from the scattered wave alone outside it, in the mean square by the errors of the scheme, and these are those of C84, with the error of the
induced currents, and those of the incident wave. All of them vanish with the size of the cells. -/
theorem C100_scattering (n : ℕ) (g : Grid ℝ) (hw : g.Wide) (hl : Lawful g) (hT : g.T = 0) (objs : List (Object ℝ)) (hb : ∀ o ∈ objs, BoxSound o)
    (hc : ∀ o ∈ objs, ClearOfUnguardedEdges g o) (hp : ∀ o ∈ objs, PassiveObject o) (epsMax sigMax : ℝ) (he : AtMost epsMax objs)
    (hs : ConductAtMost sigMax objs) (eps sig : ℝ → ℝ → ℝ) (hmed : MediumOf objs eps sig) (vol : Vol ℝ) (tp : TimeProfile ℝ)
    (hreg : ClearRegion g (g.toGrid vol.a) (g.toGrid vol.b)) (hin : AllWithin g vol objs) (Ms : ℝ) (hsig : SmoothStart tp.resp Ms)
    (w : Spec.Wave) (S : ℝ → ℝ → Prop) (J : ℝ → ℝ → ℝ → ℝ) (τ M δ : ℝ) (hsm : w.Smooth S g τ M) (hst : w.Steady g τ M)
    (hmx : w.Driven S eps sig (fun t x y => J t x y + induced eps sig tp.resp (entry g vol) t x y) g τ)
    (hJ : CurrentAtMost (fun t x y => J t x y + induced eps sig tp.resp (entry g vol) t x y) g τ M) (hwl : w.Walls g τ) (hr : w.AtRest g)
    (srcs : List (Source ℝ)) (fits : ∀ s ∈ srcs, Fits g s) (hδ : 0 ≤ δ) (hk : Spec.Carries g srcs eps sig J τ δ) (hn : ((n : ℝ) + 1 / 2) * g.dt ≤ τ) :
    ∃ c, (⟨objs, srcs, some (vol, tp)⟩ : Scene).run g n = .ok c ∧
      Real.sqrt (litGap w vol tp.resp g n c.f (updatedNodes g)) ≤ restError S g M epsMax +
        n * g.dt * drivenError S g M epsMax sigMax (δ + inducedError Ms g.dt τ (rows g vol) (epsMax - 1 + sigMax)) +
        (incidentError Ms g.dt n (rows g vol) + incidentErrorX Ms g.dt n (rows g vol)) * Real.sqrt (g.Lx * g.Ly) := by
  have hd : 0 < g.dt := by rw [hl.dt]; linarith [hl.dx]
  have M0 := hsig.nonneg
  have r0 : 0 ≤ rows g vol := by
    unfold rows
    have : 0 ≤ (g.toGrid vol.b).y - (g.toGrid vol.a).y + 1 := by have := hreg.y; omega
    exact_mod_cast this
  have hT' : g.T = 0 ∨ 2 ≤ g.T := .inl hT
  have f : (⟨objs, srcs, some (vol, tp)⟩ : Scene).Fits g := by
    refine ⟨hc, hb, fits, ?_⟩
    intro v hv
    obtain rfl := Option.some.inj hv
    have h1 := hreg.edge
    obtain ⟨q1, q2, q3, q4⟩ := hreg.hi
    have h3 := hreg.x
    have h4 := hreg.y
    simp only
    omega
  have simple : ∀ o ∈ objs, ∃ m, o.mat.kind = .simple m := fun o ho => by
    obtain ⟨m, h, -⟩ := hp o ho
    exact ⟨m, h⟩
  obtain ⟨K, hsum, hK⟩ := C100_exact g hw hl hT' ⟨objs, srcs, some (vol, tp)⟩ f simple (vol, tp) rfl hin
  have W := lineWave_exists tp.resp g.dt (N := (g.toGrid vol.b).y - (g.toGrid vol.a).y + 5) (by have := hreg.y; omega)
  generalize (fun n => (lineAt tp.resp g.dt ((g.toGrid vol.b).y - (g.toGrid vol.a).y + 5) n).e) = e at W
  generalize (fun n => (lineAt tp.resp g.dt ((g.toGrid vol.b).y - (g.toGrid vol.a).y + 5) n).h) = h at W
  have car := induced_carries hl hT.ge hp he hs hmed hreg hin hsig W (K := K) (fun m i j mm hu cov p1 p2 k1 k2 k3 k4 => by
    obtain ⟨u, hu1, F⟩ := wave_run m g hw hl hT' vol tp hreg e h W
    obtain ⟨u', hu2, F'⟩ := wave_run (m + 1) g hw hl hT' vol tp hreg e h W
    have := hK m u u' i j mm hu1 hu2 hu cov p1 p2
    rw [F.Ez_in i j k1 k2 k3 k4, F'.Ez_in i j k1 k2 k3 k4] at this
    exact this) hk
  have i0 : 0 ≤ inducedError Ms g.dt τ (rows g vol) (epsMax - 1 + sigMax) := by
    unfold inducedError
    have := he.1
    have := hs.1
    have : 0 ≤ epsMax - 1 + sigMax := by linarith
    have τ0 : 0 ≤ τ := le_trans (by positivity) hn
    positivity
  obtain ⟨d, hd1, hd2⟩ := C84_radiates n g hw hl hT objs hb hc hp epsMax sigMax he hs eps sig hmed w S _ τ M _ hsm hst hmx hJ hwl hr
    (srcs ++ currents g objs K) (currents_ok hl f K) (by positivity) car hn
  obtain ⟨c, u, d', hc1, hu1, hd1', sum⟩ := hsum n
  obtain rfl := Except.ok.inj (hd1.symm.trans hd1')
  obtain ⟨u', hu1', inc⟩ := C99_incident n g hw hl hT' vol tp hreg Ms hsig
  obtain rfl := Except.ok.inj (hu1.symm.trans hu1')
  refine ⟨c, hc1, ?_⟩
  refine le_trans ?_ (add_le_add_left hd2 _)
  unfold litGap gap
  rw [Real.sqrt_mul (sq_nonneg _), Real.sqrt_mul (sq_nonneg _)]
  have tri := sqrt_sum_triangle (updatedNodes g) (fun i j => d.f.Ez.val i j - w.nodeE g n i j) (fun i j => d.f.Hx.val i j - w.nodeX g n i j)
    (fun i j => d.f.Hy.val i j - w.nodeY g n i j) (fun i j => u.f.Ez.val i j - incidentE g vol tp.resp n i j)
    (fun i j => u.f.Hx.val i j - incidentX g vol tp.resp n i j) (fun i j => u.f.Hy.val i j)
  have e0 : 0 ≤ incidentError Ms g.dt n (rows g vol) := by unfold incidentError; positivity
  have e0' : 0 ≤ incidentErrorX Ms g.dt n (rows g vol) := by unfold incidentErrorX incidentError; positivity
  have cst := l2_const hw hl hT (M := incidentError Ms g.dt n (rows g vol) + incidentErrorX Ms g.dt n (rows g vol)) (by positivity)
    (F := fun _ _ => incidentError Ms g.dt n (rows g vol) + incidentErrorX Ms g.dt n (rows g vol)) (fun _ _ _ => by rw [abs_of_nonneg (by positivity)])
  unfold l2 at cst
  rw [Real.sqrt_mul (sq_nonneg _)] at cst
  have small : (updatedNodes g).sum (fun i j => (u.f.Ez.val i j - incidentE g vol tp.resp n i j) ^ 2 + (u.f.Hx.val i j - incidentX g vol tp.resp n i j) ^ 2 +
      u.f.Hy.val i j ^ 2) ≤ (updatedNodes g).sum fun _ _ => (incidentError Ms g.dt n (rows g vol) + incidentErrorX Ms g.dt n (rows g vol)) ^ 2 :=
    Box.sum_le _ fun i j _ => by
      obtain ⟨k1, k2, k3⟩ := inc i j
      rw [k3]
      have s1 := sq_le_sq' (abs_le.mp k1).1 (abs_le.mp k1).2
      have s2 := sq_le_sq' (abs_le.mp k2).1 (abs_le.mp k2).2
      nlinarith [mul_nonneg e0 e0']
  have fields : (updatedNodes g).sum (fun i j => (c.f.Ez.val i j - (w.nodeE g n i j + incidentE g vol tp.resp n i j)) ^ 2 +
      (c.f.Hx.val i j - (w.nodeX g n i j + incidentX g vol tp.resp n i j)) ^ 2 + (c.f.Hy.val i j - w.nodeY g n i j) ^ 2) =
      (updatedNodes g).sum fun i j => (d.f.Ez.val i j - w.nodeE g n i j + (u.f.Ez.val i j - incidentE g vol tp.resp n i j)) ^ 2 +
        (d.f.Hx.val i j - w.nodeX g n i j + (u.f.Hx.val i j - incidentX g vol tp.resp n i j)) ^ 2 + (d.f.Hy.val i j - w.nodeY g n i j + u.f.Hy.val i j) ^ 2 :=
    Box.sum_congr _ fun i j _ => by
      obtain ⟨k1, k2, k3⟩ := sum i j
      rw [k1, k2, k3]
      ring
  rw [fields]
  refine (mul_le_mul_of_nonneg_left tri (Real.sqrt_nonneg _)).trans ?_
  rw [mul_add]
  exact add_le_add_right ((mul_le_mul_of_nonneg_left (Real.sqrt_le_sqrt small) (Real.sqrt_nonneg _)).trans cst) _

end Qbox.Props
