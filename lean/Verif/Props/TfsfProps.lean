import Verif.Lemmas.Incident
import Verif.Props.DftProps
import Verif.Props.LinearProps

/-!
# C33, C34, C52: the total-field region
-/

namespace Qbox.Props
open Qbox Scalar Spec

set_option linter.unusedSectionVars false

/-! ## C33 -/

/-- State of the auxiliary scheme: `e` and `h` now, and `e` at the node before the end one and two steps ago. -/
structure LineState where
  e : ℤ → ℝ
  h : ℤ → ℝ
  r1 : ℝ

noncomputable def lineStep (s : ℝ → ℝ) (dt : ℝ) (N : ℤ) (n : ℕ) (x : LineState) : LineState :=
  let e := fun k => if k = N - 1 then x.r1 else if k = 1 then s (((n : ℝ) + 1) * dt) else x.e k + (x.h (k - 1) - x.h k) / 2
  ⟨e, fun k => x.h k + (e k - e (k + 1)) / 2, x.e (N - 2)⟩

noncomputable def lineAt (s : ℝ → ℝ) (dt : ℝ) (N : ℤ) : ℕ → LineState
  | 0 => ⟨fun _ => 0, fun _ => 0, 0⟩
  | n + 1 => lineStep s dt N n (lineAt s dt N n)

/-- The one-dimensional scheme has a solution for every signal and every length. -/
theorem lineWave_exists (s : ℝ → ℝ) (dt : ℝ) {N : ℤ} (hN : 5 ≤ N) :
    LineWave s dt N (fun n => (lineAt s dt N n).e) (fun n => (lineAt s dt N n).h) where
  e0 := fun _ => rfl
  h0 := fun _ => rfl
  drive := fun n => by
    show (lineStep s dt N n _).e 1 = _
    have : ¬ (1 : ℤ) = N - 1 := by omega
    simp [lineStep, this]
  ampere := fun n k h1 h2 => by
    show (lineStep s dt N n _).e k = _
    simp only [lineStep]
    rw [if_neg (by omega), if_neg (by omega)]
  end1 := by
    show (lineStep s dt N 0 _).e (N - 1) = 0
    simp [lineStep, lineAt]
  open_ := fun n => by
    show (lineStep s dt N (n + 1) (lineStep s dt N n _)).e (N - 1) = _
    simp [lineStep]
  faraday := fun n k h1 h2 => by
    show (lineStep s dt N n _).h k = _
    rfl

/-- The wave moves at most one node per step. -/
theorem lineWave_silent {s : ℝ → ℝ} {dt : ℝ} {N : ℤ} {e h : ℕ → ℤ → ℝ} (W : LineWave s dt N e h) :
    ∀ n : ℕ, (∀ k : ℤ, n < k → 1 ≤ k → k ≤ N - 1 → e n k = 0) ∧ (∀ k : ℤ, n < k → 1 ≤ k → k ≤ N - 2 → h n k = 0) := by
  intro n
  induction n using Nat.strong_induction_on with
  | _ n ih =>
    cases n with
    | zero => exact ⟨fun k _ _ _ => W.e0 k, fun k _ _ _ => W.h0 k⟩
    | succ n =>
      obtain ⟨i1, i2⟩ := ih n (by omega)
      have hE : ∀ k : ℤ, ((n + 1 : ℕ) : ℤ) < k → 1 ≤ k → k ≤ N - 1 → e (n + 1) k = 0 := by
        intro k hk k1 k2
        push_cast at hk
        by_cases c : k = N - 1
        · rw [c]
          cases n with
          | zero => exact W.end1
          | succ m =>
            rw [W.open_]
            push_cast at hk
            exact (ih m (by omega)).1 (N - 2) (by omega) (by omega) (by omega)
        · rw [W.ampere n k (by omega) (by omega), i1 k (by omega) k1 k2, i2 k (by omega) k1 (by omega),
            i2 (k - 1) (by omega) (by omega) (by omega)]
          simp
      refine ⟨hE, fun k hk k1 k2 => ?_⟩
      push_cast at hk
      rw [W.faraday n k k1 k2, hE k (by push_cast; omega) k1 (by omega), hE (k + 1) (by push_cast; omega) (by omega) (by omega),
        i2 k (by omega) k1 k2]
      simp

/-- **C33** (the wave itself). Until the wave has reached the end of the auxiliary line it does not depend on where the line
ends. -/
theorem C33_no_echo_yet {s : ℝ → ℝ} {dt : ℝ} {N N' : ℤ} {e h e' h' : ℕ → ℤ → ℝ} (hNN : N ≤ N')
    (W : LineWave s dt N e h) (W' : LineWave s dt N' e' h') :
    ∀ n : ℕ, (n : ℤ) ≤ N - 2 → (∀ k, 1 ≤ k → k ≤ N - 1 → e n k = e' n k) ∧ (∀ k, 1 ≤ k → k ≤ N - 2 → h n k = h' n k) := by
  intro n
  induction n with
  | zero => intro _; exact ⟨fun k _ _ => by rw [W.e0, W'.e0], fun k _ _ => by rw [W.h0, W'.h0]⟩
  | succ n ih =>
    intro hn
    push_cast at hn
    obtain ⟨i1, i2⟩ := ih (by omega)
    have hE : ∀ k, 1 ≤ k → k ≤ N - 1 → e (n + 1) k = e' (n + 1) k := by
      intro k k1 k2
      by_cases c2 : k = N - 1
      · rw [(lineWave_silent W (n + 1)).1 k (by push_cast; omega) k1 k2, (lineWave_silent W' (n + 1)).1 k (by push_cast; omega) k1 (by omega)]
      · by_cases c1 : k = 1
        · rw [c1, W.drive, W'.drive]
        · rw [W.ampere n k (by omega) (by omega), W'.ampere n k (by omega) (by omega), i1 k k1 k2, i2 k k1 (by omega),
            i2 (k - 1) (by omega) (by omega)]
    refine ⟨hE, fun k k1 k2 => ?_⟩
    rw [W.faraday n k k1 k2, W'.faraday n k k1 (by omega), hE k k1 (by omega), hE (k + 1) (by omega) (by omega), i2 k k1 k2]

theorem Tfsf.make_wave' (g : Grid ℝ) (vol : Vol ℝ) (tp : TimeProfile ℝ) (dt : ℝ) {N : ℤ} {e h : ℕ → ℤ → ℝ}
    (W : LineWave tp.resp dt N e h) : (Tfsf.make g tp vol dt).OnWave tp.resp e h 0 where
  shape := Tfsf.make_shape _ _ _ _
  sig := rfl
  t := by simp [Tfsf.make]
  ca := fun k => by simp [Tfsf.make, Arr.const]
  cb := fun k => by simp [Tfsf.make, Arr.const]
  Iz := fun k => rfl
  Dz := fun k _ _ => by rw [W.e0]; rfl
  Ez := fun k _ _ => by rw [W.e0]; rfl
  Hx := fun k _ _ => by rw [W.h0]; rfl
  right0 := by rw [W.e0]; rfl
  right1 := rfl

/-- **C33** (the auxiliary line). Whatever else the simulation contains, after `n` updates the auxiliary line of a total-field
region carries exactly the wave of the one-dimensional scheme. -/
theorem C33_line (n : ℕ) : ∀ (m : ℕ) (c : Core ℝ) (srcs : List (Source ℝ)) (s : ℝ → ℝ) (e h : ℕ → ℤ → ℝ) (w : Tfsf ℝ), c.Std →
    (∀ q ∈ srcs, Fits c.g q) → c.tfsf = some w → LineWave s w.dt w.Nx e h → w.OnWave s e h m →
    ∃ c' srcs' w', c.run n srcs = .ok (c', srcs') ∧ c'.tfsf = some w' ∧ w'.OnWave s e h (m + n) ∧ w.SameBox w' := by
  induction n with
  | zero => intro m c srcs s e h w _ _ ht _ O; exact ⟨c, srcs, w, rfl, ht, O, ⟨rfl, rfl, rfl, rfl, rfl, rfl⟩⟩
  | succ n ih =>
    intro m c srcs s e h w hc hs ht W O
    obtain ⟨c1, l1, E2, E3, E4, f, hu, S⟩ := Core.update_step hc srcs hs
    obtain ⟨w1, hp, O1, B⟩ := Tfsf.pulse_wave W O
    have htf : c1.tfsf = some w1 := by
      have := S.tf
      rw [ht] at this
      simp only [optPulse, hp, Except.ok_bind] at this
      exact (Except.ok.inj this).symm
    obtain ⟨c2, l2, w2, r1, r2, r3, r4⟩ := ih (m + 1) c1 l1 s e h w1 S.std S.fits htf (by rw [B.dt, B.Nx]; exact W) O1
    refine ⟨c2, l2, w2, by rw [Core.run, hu]; exact r1, r2, by rw [show m + (n + 1) = m + 1 + n by omega]; exact r3, ?_⟩
    exact ⟨r4.ia.trans B.ia, r4.ib.trans B.ib, r4.ja.trans B.ja, r4.jb.trans B.jb, r4.Nx.trans B.Nx, r4.dt.trans B.dt⟩

/-- **C33.** In empty space and without other sources, after any number of updates a total-field region that is clear of the
absorbing layer contains exactly the incident wave, and the field is exactly zero at every other node: nothing leaks. -/
theorem C33_no_leak (n : ℕ) (c : Core ℝ) (hc : c.Std) (he : Empty c) (hs : Silent c) (vol : Vol ℝ) (tp : TimeProfile ℝ)
    (hr : ClearRegion c.g (c.g.toGrid vol.a) (c.g.toGrid vol.b)) (e h : ℕ → ℤ → ℝ)
    (W : LineWave tp.resp c.g.dt ((c.g.toGrid vol.b).y - (c.g.toGrid vol.a).y + 5) e h) :
    ∃ c', (c.setTfsf vol tp).run n [] = .ok (c', []) ∧ FillsOnly c'.f (c.g.toGrid vol.a) (c.g.toGrid vol.b) (e n) (h n) := by
  set a := c.g.toGrid vol.a with ha
  set b := c.g.toGrid vol.b with hb
  have hN : (Tfsf.make c.g tp vol c.g.dt).Nx = b.y - a.y + 5 := by
    show |a.y - b.y| + 5 = b.y - a.y + 5
    have := hr.y
    rw [abs_of_nonpos (by omega)]; omega
  have hfit : TfsfFits c.g vol := by
    obtain ⟨⟨l1, l2, l3, l4⟩, ⟨r1, r2, r3, r4⟩, x, y⟩ := hr
    have := hc.thick
    have q1 : 1 ≤ a.x := by omega
    have q2 : b.x < c.g.Nx := by omega
    have q3 : 1 ≤ a.y := by omega
    have q4 : b.y < c.g.Ny := by omega
    exact ⟨q1, x, q2, q3, y, q4⟩
  have wf : (c.setTfsf vol tp).WF := Core.setTfsf_ok hc.wf hfit tp
  have I0 : (c.setTfsf vol tp).Incident tp.resp a b e h 0 := {
    std := hc.of_same wf rfl rfl rfl rfl
    empty := ⟨he.medium, he.debye, he.drude, he.lorentz⟩
    clear := hr
    quiet := ⟨hs.Ezx1, hs.Ezx2, hs.Hyx1, hs.Hyx2, hs.Ezy1, hs.Ezy2, hs.Hxy1, hs.Hxy2⟩
    fills := ⟨fun i j _ _ _ _ => by rw [W.e0]; exact hs.Ez i j, fun i j _ => hs.Ez i j, fun i j _ _ _ _ => by rw [W.h0]; exact hs.Hx i j,
      fun i j _ => hs.Hx i j, fun i j => hs.Hy i j⟩
    line := ⟨_, rfl, Tfsf.make_wave' c.g vol tp c.g.dt W, rfl, rfl, rfl, rfl, hN, rfl⟩ }
  have key : ∀ (n m : ℕ) (d : Core ℝ), d.g = c.g → d.Incident tp.resp a b e h m →
      ∃ d', d.run n [] = .ok (d', []) ∧ d'.Incident tp.resp a b e h (m + n) := by
    intro n
    induction n with
    | zero => intro m d _ I; exact ⟨d, rfl, I⟩
    | succ n ih =>
      intro m d hd I
      obtain ⟨d1, h1, I1, g1⟩ := Core.incident_step (by rw [hd]; exact W) I
      obtain ⟨d2, h2, I2⟩ := ih (m + 1) d1 (g1.trans hd) I1
      exact ⟨d2, by rw [Core.run, h1]; exact h2, by rw [show m + (n + 1) = m + 1 + n by omega]; exact I2⟩
  obtain ⟨c', h1, I1⟩ := key n 0 (c.setTfsf vol tp) rfl I0
  rw [Nat.zero_add] at I1
  exact ⟨c', h1, I1.fills⟩

theorem make_empty {g : Grid ℝ} (hg : g.Wide) (hl : Lawful g) (hT : g.T = 0 ∨ 2 ≤ g.T) :
    ∃ c, Core.make g = .ok c ∧ c.Std ∧ c.g = g ∧ Silent c ∧ Empty c := by
  obtain ⟨c, hm, hs, e1, hz⟩ := make_silent hg hl hT
  refine ⟨c, hm, hs, e1, hz, ?_⟩
  have hm' := hm
  unfold Core.make at hm'
  simp only at hm'
  rw [clearMaterials_closed ⟨⟨rfl, rfl⟩, ⟨rfl, rfl⟩, ⟨rfl, rfl⟩, ⟨rfl, rfl⟩, ⟨rfl, rfl⟩, ⟨rfl, rfl⟩, ⟨rfl, rfl⟩⟩] at hm'
  simp only [Except.ok_bind, Except.bind_ok, Except.pure_eq] at hm'
  obtain ⟨p, -, sc, -, hcc⟩ := hm'
  have hf := (congrArg Core.f (Except.ok.inj hcc)).symm
  simp only at hf
  refine ⟨?_, (congrArg Core.debye (Except.ok.inj hcc)).symm, (congrArg Core.drude (Except.ok.inj hcc)).symm,
    (congrArg Core.lorentz (Except.ok.inj hcc)).symm⟩
  intro i j h1 h2 h3 h4
  rw [e1] at h2 h4 ⊢
  have hin : (i, j) ∈ rect 0 g.Nx 0 g.Ny := by rw [mem_rect]; exact ⟨⟨h1, h2⟩, h3, h4⟩
  rw [hf]
  constructor <;> simp [Flds.paint, hin]

/-- **C33** for a new simulation. -/
theorem C33_no_leak_new (n : ℕ) (g : Grid ℝ) (hg : g.Wide) (hl : Lawful g) (hT : g.T = 0 ∨ 2 ≤ g.T) (vol : Vol ℝ) (tp : TimeProfile ℝ)
    (hr : ClearRegion g (g.toGrid vol.a) (g.toGrid vol.b)) (e h : ℕ → ℤ → ℝ)
    (W : LineWave tp.resp g.dt ((g.toGrid vol.b).y - (g.toGrid vol.a).y + 5) e h) :
    ∃ c c', Core.make g = .ok c ∧ (c.setTfsf vol tp).run n [] = .ok (c', []) ∧
      FillsOnly c'.f (g.toGrid vol.a) (g.toGrid vol.b) (e n) (h n) := by
  obtain ⟨c, hm, hc, rfl, hs, he⟩ := make_empty hg hl hT
  obtain ⟨c', h1, h2⟩ := C33_no_leak n c hc he hs vol tp hr e h W
  exact ⟨c, c', hm, h1, h2⟩

/-- A non-trivial case of C33: a region of the example grid. -/
theorem gEx_region : ClearRegion gEx (gEx.toGrid ⟨5, 6⟩) (gEx.toGrid ⟨12, 13⟩) := by
  have r : ∀ z : ℤ, roundAway ((z : ℝ)) = z := fun z => roundAway_int z
  have r5 : roundAway (5 : ℝ) = 5 := by simpa using r 5
  have r6 : roundAway (6 : ℝ) = 6 := by simpa using r 6
  have r12 : roundAway (12 : ℝ) = 12 := by simpa using r 12
  have r13 : roundAway (13 : ℝ) = 13 := by simpa using r 13
  have ea : gEx.toGrid ⟨5, 6⟩ = ⟨5, 6⟩ := by simp [Grid.toGrid, gEx_dx, r5, r6]
  have eb : gEx.toGrid ⟨12, 13⟩ = ⟨12, 13⟩ := by simp [Grid.toGrid, gEx_dx, r12, r13]
  rw [ea, eb]
  refine ⟨⟨?_, ?_, ?_, ?_⟩, ⟨?_, ?_, ?_, ?_⟩, by norm_num, by norm_num, by norm_num, by norm_num⟩ <;>
    simp only [gEx_T, gEx_Nx, gEx_Ny] <;> norm_num

/-- In that region a continuous wave is not zero after the first step has reached it. -/
example : ∃ c c' : Core ℝ, ∃ e h : ℕ → ℤ → ℝ, Core.make gEx = .ok c ∧
    LineWave (TimeProfile.continuous (1 / 8 : ℝ)).resp gEx.dt 12 e h ∧
    (c.setTfsf ⟨⟨5, 6⟩, ⟨12, 13⟩, ⟨7, 7⟩⟩ (.continuous (1 / 8))).run 4 [] = .ok (c', []) ∧
    FillsOnly c'.f (gEx.toGrid ⟨5, 6⟩) (gEx.toGrid ⟨12, 13⟩) (e 4) (h 4) := by
  have r : ∀ z : ℤ, roundAway ((z : ℝ)) = z := fun z => roundAway_int z
  have r5 : roundAway (5 : ℝ) = 5 := by simpa using r 5
  have r6 : roundAway (6 : ℝ) = 6 := by simpa using r 6
  have r12 : roundAway (12 : ℝ) = 12 := by simpa using r 12
  have r13 : roundAway (13 : ℝ) = 13 := by simpa using r 13
  have W := lineWave_exists (TimeProfile.continuous (1 / 8 : ℝ)).resp gEx.dt (N := 12) (by norm_num)
  have ea : gEx.toGrid ⟨5, 6⟩ = ⟨5, 6⟩ := by simp [Grid.toGrid, gEx_dx, r5, r6]
  have eb : gEx.toGrid ⟨12, 13⟩ = ⟨12, 13⟩ := by simp [Grid.toGrid, gEx_dx, r12, r13]
  obtain ⟨c, c', h1, h2, h3⟩ := C33_no_leak_new 4 gEx gEx_wide gEx_lawful (by rw [gEx_T]; norm_num) ⟨⟨5, 6⟩, ⟨12, 13⟩, ⟨7, 7⟩⟩
    (.continuous (1 / 8)) gEx_region _ _ (by rw [ea, eb]; exact W)
  exact ⟨c, c', _, _, h1, W, h2, h3⟩

/-! ## C34 -/

section
variable {K : Type} [Scalar K]

/-- The incident wave after `n` steps of the auxiliary line. -/
def pulses : ℕ → Tfsf K → M (Tfsf K)
  | 0, w => .ok w
  | n + 1, w => do pulses n (← w.pulse)

/-- **C34**, in any arithmetic. For a region whose first corner is the lower left one and that keeps a distance of one cell from
the lower edges of the grid, no step of the auxiliary line and no injection into the fields accesses an array out of range. -/
theorem C34_safe (g : Grid K) (vol : Vol K) (h : TfsfFits g vol) (tp : TimeProfile K) (dt : K) (n : ℕ) :
    ∃ w, pulses n (Tfsf.make g tp vol dt) = .ok w ∧ (∃ w', w.pulse = .ok w') ∧
      (∀ Ez : Tensor K, Ez.Dim g.Nx g.Ny → ∃ Ez', w.updateD Ez = .ok Ez') ∧
      (∀ p : HPair K, p.Hx.Dim g.Nx g.Ny → p.Hy.Dim g.Nx g.Ny → ∃ p', w.updateH p = .ok p') := by
  have key : ∀ (n : ℕ) (w : Tfsf K), w.Shape → w.InGrid g.Nx g.Ny → ∃ w', pulses n w = .ok w' ∧ w'.Shape ∧ w'.InGrid g.Nx g.Ny := by
    intro n
    induction n with
    | zero => intro w h1 h2; exact ⟨w, rfl, h1, h2⟩
    | succ n ih =>
      intro w h1 h2
      obtain ⟨w1, q1, q2, e1, e2, e3, e4, e5⟩ := Tfsf.pulse_ok h1
      obtain ⟨i0, i1, i2, i3, i4, i5, i6⟩ := h2
      obtain ⟨w2, q3, q4⟩ := ih w1 q2 ⟨by omega, by omega, by omega, by omega, by omega, by omega, by omega⟩
      exact ⟨w2, by rw [pulses, q1]; exact q3, q4⟩
  obtain ⟨w, h1, h2, h3⟩ := key n _ (Tfsf.make_shape g tp vol dt) (Tfsf.make_inGrid h tp dt)
  refine ⟨w, h1, ?_, fun Ez hE => ?_, fun p hX hY => ?_⟩
  · obtain ⟨w', q, -⟩ := Tfsf.pulse_ok h2; exact ⟨w', q⟩
  · obtain ⟨Ez', q, -⟩ := Tfsf.updateD_ok h2 h3 hE; exact ⟨Ez', q⟩
  · obtain ⟨p', q, -⟩ := Tfsf.updateH_ok h2 h3 hX hY; exact ⟨p', q⟩

/-- **C34** (whole simulation). Adding such a region to a simulation leaves it free of faults for any number of updates. -/
theorem C34_run (c : Core K) (hc : c.WF) (hg : c.g.Wide) (srcs : List (Source K)) (hs : ∀ s ∈ srcs, Fits c.g s) (vol : Vol K)
    (h : TfsfFits c.g vol) (tp : TimeProfile K) (n : ℕ) : ∃ r, (c.setTfsf vol tp).run n srcs = .ok r := by
  obtain ⟨c', s', h1, -⟩ := Core.run_ok n (Core.setTfsf_ok hc h tp) hg srcs hs
  exact ⟨_, h1⟩

/-- The distance is needed: a region that touches the left edge of the grid reads and writes column -1 in its first injection. -/
theorem C34_distance_needed (g : Grid K) (vol : Vol K) (tp : TimeProfile K) (dt : K) (p : HPair K) (hX : p.Hx.Dim g.Nx g.Ny)
    (ha : (g.toGrid vol.a).x = 0) (hb : 0 ≤ (g.toGrid vol.b).x ∧ (g.toGrid vol.b).x < g.Nx)
    (hj : 1 ≤ (g.toGrid vol.a).y ∧ (g.toGrid vol.a).y ≤ (g.toGrid vol.b).y ∧ (g.toGrid vol.b).y < g.Ny) :
    (Tfsf.make g tp vol dt).updateH p = .error (.ub .oob) := by
  have sh := Tfsf.make_shape g tp vol dt
  obtain ⟨w0, w1, w2, w3, w4, w5, w6, -⟩ := sh
  have eN : (Tfsf.make g tp vol dt).Nx = (g.toGrid vol.b).y - (g.toGrid vol.a).y + 5 := by
    show |(g.toGrid vol.a).y - (g.toGrid vol.b).y| + 5 = _
    rw [abs_of_nonpos (by omega)]; omega
  have ia : (Tfsf.make g tp vol dt).ia = 0 := ha
  have ib : (Tfsf.make g tp vol dt).ib = (g.toGrid vol.b).x := rfl
  have ja : (Tfsf.make g tp vol dt).ja = (g.toGrid vol.a).y := rfl
  have jb : (Tfsf.make g tp vol dt).jb = (g.toGrid vol.b).y := rfl
  generalize Tfsf.make g tp vol dt = w at *
  unfold Tfsf.updateH
  obtain ⟨X, h1, d1⟩ := forRange_inv (fun E : Tensor K => E.Dim g.Nx g.Ny) w.ia (w.ib + 1)
    (fun i Hx => do
      let Hx ← Hx.addTo i (w.ja - 1) (half * (← w.Ez.rd 3))
      Hx.addTo i w.jb (-half * (← w.Ez.rd (w.Nx - 2))))
    (by
      intro i h1 h2 E hE
      obtain ⟨e1, e2⟩ := hE
      simp (disch := first | omega | (simp only [Tensor.setv_nx, Tensor.setv_ny]; omega)) only
        [Arr.rd_in, Tensor.addTo_in, Except.ok_bind]
      exact ⟨_, rfl, e1, e2⟩) p.Hx hX
  rw [h1]; simp only [Except.ok_bind]
  have bad : ∀ j, w.ja ≤ j → j < w.jb + 1 → ∀ H : Tensor K, (do
      let Hy ← H.addTo (w.ia - 1) j (-half * (← w.Ez.rd (j - w.ja + 3)))
      Hy.addTo w.ib j (half * (← w.Ez.rd (j - w.ja + 3)))) = .error (.ub .oob) := by
    intro j h1 h2 H
    simp (disch := omega) only [Arr.rd_in, Except.ok_bind]
    have : ∀ v, H.addTo (w.ia - 1) j v = .error (.ub .oob) := by
      intro v
      unfold Tensor.addTo
      rw [Tensor.rd_out (by unfold Tensor.In; omega)]
      rfl
    rw [this]
    rfl
  rw [forRange_fail (fun _ => True) (.ub .oob) w.ja (w.jb + 1) _ (fun j h1 h2 H _ => Or.inr (bad j h1 h2 H)) w.ja (le_refl _) (by omega)
    (fun H _ => bad w.ja (le_refl _) (by omega) H) p.Hy trivial]
  rfl

end

/-- A non-trivial case of C34: the same region of the example grid. -/
example : TfsfFits gEx ⟨⟨5, 6⟩, ⟨12, 13⟩, ⟨7, 7⟩⟩ := by
  obtain ⟨⟨l1, l2, l3, l4⟩, ⟨r1, r2, r3, r4⟩, x, y⟩ := gEx_region
  rw [gEx_T] at l1 l3
  rw [gEx_T] at r2 r4
  exact ⟨by show 1 ≤ (gEx.toGrid ⟨5, 6⟩).x; omega, x, by show (gEx.toGrid ⟨12, 13⟩).x < _; omega,
    by show 1 ≤ (gEx.toGrid ⟨5, 6⟩).y; omega, y, by show (gEx.toGrid ⟨12, 13⟩).y < _; omega⟩

end Qbox.Props
