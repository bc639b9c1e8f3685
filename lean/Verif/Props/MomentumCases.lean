import Verif.Props.MomentumProps
import Verif.Props.ForceCases
import Verif.Props.PulseCases

/-! # A pulse of light that pushes a body (cases of C103) -/

namespace Qbox.Props
open Qbox Scalar Spec

/-- The derivatives of the field of the pulse that Gauss's law is about. -/
noncomputable def pulseXx (t x y : ℝ) : ℝ := tilt dirX (tilt dirY fun p => - pulseA p) (t, x, y)
noncomputable def pulseYy (t x y : ℝ) : ℝ := tilt dirY (tilt dirX pulseA) (t, x, y)

theorem pulse_faded {p q : V2 ℝ} {T : ℝ} (hb : ∀ x y, (x, y) ∈ between p q → 2 < x ∧ x ≤ 14 ∧ 2 < y ∧ y < 13) (hT : 15 < T) : pulse.Faded p q T 0 := by
  intro x y h
  obtain ⟨h1, h2, h3, h4⟩ := hb x y h
  have c : (T, x, y) ∈ pulseClear := ⟨by show 2 < x; linarith, by show x < 17; linarith, by show 2 < y; linarith, by show y < 13; linarith⟩
  obtain ⟨e1, e2, e3⟩ := pulse_clear c
  rw [e1, e2, e3, pulseShape_over (by linarith)]
  simp

theorem pulse_calm {p q : V2 ℝ} {τ M T : ℝ} (hs : pulse.Solenoidal pulseXx pulseYy (fun _ _ => True) gOpen τ M)
    (hb : ∀ x y, (x, y) ∈ between p q → 2 < x ∧ x ≤ 14 ∧ 2 < y ∧ y < 13) (hT : 15 < T) : pulse.Calm (fun _ _ => True) gOpen p q τ M T 0 pulseXx pulseYy where
  pieces := pieces_all _ _
  regular := potential_regular pulseA_smooth _ _ _ _
  faded := pulse_faded hb hT
  solenoidal := hs
  evenX := (tilt_smooth (tilt_smooth pulseA_smooth.neg dirY) dirX).continuous.continuousOn
  evenY := (tilt_smooth (tilt_smooth pulseA_smooth dirX) dirY).continuous.continuousOn

theorem in_box {a b : V2 ℤ} {x y : ℝ} (h : (x, y) ∈ between (gOpen.toReal a) (gOpen.toReal b)) : (a.x : ℝ) ≤ x ∧ x ≤ b.x ∧ (a.y : ℝ) ≤ y ∧ y ≤ b.y := by
  obtain ⟨⟨h1, h2⟩, h3, h4⟩ := h
  simp only [Grid.toReal, gOpen_dx, ofInt_real, one_mul, mul_one] at h1 h2 h3 h4
  exact ⟨h1, h2, h3, h4⟩

/-- A case of `C103_simple`: the pulse passes through the box between the nodes (3, 4) and (14, 12) and through the conducting dielectric disc in it. Once it has passed, the numbers in the file are
the force and the torque on the currents in the disc and in the sources, up to the error of the scheme. -/
example (now : ℕ → ℝ) (freq : List ℝ) (n : ℕ) (hn : 31 ≤ n) (qty : Quantity ℝ) (hq : qty = .force ∨ ∃ c, qty = .torque c) : ∃ w4 M,
    BoxFelt qty now gOpen (furnish [lampDisc] (discSources (neededCurrent pulseA discEps discSig))) (List.replicate n (.op .update)) [] "v" ⟨((3 : ℤ) : ℝ), ((4 : ℤ) : ℝ)⟩
      ⟨((14 : ℤ) : ℝ), ((12 : ℤ) : ℝ)⟩ freq n w4 ∧
    HoldsLorentzForce qty w4 gOpen "v" ⟨((3 : ℤ) : ℝ), ((4 : ℤ) : ℝ)⟩ ⟨((14 : ℤ) : ℝ), ((12 : ℤ) : ℝ)⟩ freq pulse (pulse.currents discEps discSig (neededCurrent pulseA discEps discSig)) (n * gOpen.dt)
      (lorentzForceError gOpen ⟨((3 : ℤ) : ℝ), ((4 : ℤ) : ℝ)⟩ ⟨((14 : ℤ) : ℝ), ((12 : ℤ) : ℝ)⟩ M (n * gOpen.dt)
        (restError (fun _ _ => True) gOpen M 3 + n * gOpen.dt * drivenError (fun _ _ => True) gOpen M 3 1 0) 0)
      (lorentzTorqueError gOpen ⟨((3 : ℤ) : ℝ), ((4 : ℤ) : ℝ)⟩ ⟨((14 : ℤ) : ℝ), ((12 : ℤ) : ℝ)⟩ M (n * gOpen.dt)
        (restError (fun _ _ => True) gOpen M 3 + n * gOpen.dt * drivenError (fun _ _ => True) gOpen M 3 1 0) 0) := by
  have nn := Nat.cast_nonneg (α := ℝ) n
  have hd : gOpen.dt = 1 / 2 := by rw [gOpen_lawful.dt, gOpen_dx]
  have late : 15 < n * gOpen.dt := by
    have : (31 : ℝ) ≤ n := by exact_mod_cast hn
    rw [hd]; linarith
  obtain ⟨M, -, sm, st, ev, cm, so⟩ := potential_tame pulseA_smooth gOpen (n + 1) (eps := discEps) (sig := discSig) (em := 3) (sm := 1)
    (fun x y => by rcases discEps_cases x y with ⟨e1, e2⟩ | ⟨e1, e2⟩ <;> rw [e1] <;> norm_num)
    (fun x y => by rcases discEps_cases x y with ⟨e1, e2⟩ | ⟨e1, e2⟩ <;> rw [e2] <;> norm_num)
  have names := disc_names ⟨"m", .simple ⟨3, 1, 1⟩⟩ 10 10 (by unfold PlainNames disc; decide) gOpen discEps discSig (neededCurrent pulseA discEps discSig) (- (gOpen.dt / 2))
  obtain ⟨w4, h⟩ := C102_program now gOpen gOpen_wide gOpen_lawful gOpen_T [lampDisc] lampDisc_clear (discSources (neededCurrent pulseA discEps discSig)) (discSources_fit _) "v"
    ⟨((3 : ℤ) : ℝ), ((4 : ℤ) : ℝ)⟩ ⟨((14 : ℤ) : ℝ), ((12 : ℤ) : ℝ)⟩ freq n
    (by rw [gOpen_dx]) (by rw [gOpen_node, gOpen_node, gOpen_Nx]; decide) (by rw [gOpen_node, gOpen_node, gOpen_Ny]; decide) names.1 names.2 qty hq
  have C := pulse_calm (p := gOpen.toReal ⟨3, 4⟩) (q := gOpen.toReal ⟨14, 12⟩) so (fun x y hb => by
    have := in_box hb
    norm_num at this
    exact ⟨by linarith, by linarith, by linarith, by linarith⟩) late
  rw [← gOpen_node 3 4, ← gOpen_node 14 12] at C
  refine ⟨w4, M, h, C103_simple h [lampDisc] _ (objectsOf_furnish _ _).1 (objectsOf_furnish _ _).2 ?_ lampDisc_clear ?_ 3 1 ⟨by norm_num, ?_⟩ ⟨by norm_num, ?_⟩ discEps discSig
    lampDisc_medium pulse (fun _ _ => True) _ pulseXx pulseYy (n + 1) M 0 0 sm st ev (potential_driven pulseA_smooth _ _ _ _) cm (pulse_walls _) (pulse_rest _) (discSources_fit _) le_rfl
    (discSources_carry _ _) (by rw [hd]; linarith) C⟩
  · intro o ho
    rw [List.mem_singleton.mp ho]
    exact disc_sound _ _ _
  · intro o ho
    rw [List.mem_singleton.mp ho]
    exact ⟨⟨3, 1, 1⟩, rfl, by norm_num, by norm_num⟩
  · intro o ho m hm
    rw [List.mem_singleton.mp ho] at hm
    cases hm
    exact le_rfl
  · intro o ho m hm
    rw [List.mem_singleton.mp ho] at hm
    cases hm
    norm_num

/-- A case of `C103_empty`: the pulse passes through an empty box and hits a disc behind it. It exerts neither force nor torque on the box. -/
example (now : ℕ → ℝ) (freq : List ℝ) (n : ℕ) (hn : 31 ≤ n) (qty : Quantity ℝ) (hq : qty = .force ∨ ∃ c, qty = .torque c) : ∃ w4 M,
    BoxFelt qty now gOpen (furnish [sideDisc] pulseSources) (List.replicate n (.op .update)) [] "v" ⟨((3 : ℤ) : ℝ), ((4 : ℤ) : ℝ)⟩ ⟨((14 : ℤ) : ℝ), ((12 : ℤ) : ℝ)⟩ freq n w4 ∧
    HoldsNoForce qty w4 gOpen "v" freq
      (lorentzForceError gOpen ⟨((3 : ℤ) : ℝ), ((4 : ℤ) : ℝ)⟩ ⟨((14 : ℤ) : ℝ), ((12 : ℤ) : ℝ)⟩ M (n * gOpen.dt)
        (restError (fun _ _ => True) gOpen M 3 + n * gOpen.dt * drivenError (fun _ _ => True) gOpen M 3 1 0) 0)
      (lorentzTorqueError gOpen ⟨((3 : ℤ) : ℝ), ((4 : ℤ) : ℝ)⟩ ⟨((14 : ℤ) : ℝ), ((12 : ℤ) : ℝ)⟩ M (n * gOpen.dt)
        (restError (fun _ _ => True) gOpen M 3 + n * gOpen.dt * drivenError (fun _ _ => True) gOpen M 3 1 0) 0) := by
  have hl : Lawful gOpen := gOpen_lawful
  have nn := Nat.cast_nonneg (α := ℝ) n
  have hd : gOpen.dt = 1 / 2 := by rw [hl.dt, gOpen_dx]
  have late : 15 < n * gOpen.dt := by
    have : (31 : ℝ) ≤ n := by exact_mod_cast hn
    rw [hd]; linarith
  have fits : ∀ s ∈ pulseSources, Fits gOpen s := renamed_fits (radiators_fit hl _ _ _ _)
  have carry : Spec.Carries gOpen pulseSources sideEps sideSig (neededCurrent pulseA sideEps sideSig) (n + 1) 0 := by
    refine renamed_carry (radiators_carry hl _ (fun i j _ => ?_) fun m i j _ _ => ?_)
    · rcases side_cases (i * gOpen.dx) (j * gOpen.dx) with ⟨-, e1, e2⟩ | ⟨e1, e2⟩ <;> rw [e1, e2] <;> norm_num
    · rw [show ((m : ℝ) + 1) * gOpen.dt + - (gOpen.dt / 2) = (m + 1 / 2) * gOpen.dt by ring, sub_self, abs_zero]
  obtain ⟨M, -, sm, st, ev, cm, so⟩ := potential_tame pulseA_smooth gOpen (n + 1) (eps := sideEps) (sig := sideSig) (em := 3) (sm := 1)
    (fun x y => by rcases side_cases x y with ⟨-, e1, e2⟩ | ⟨e1, e2⟩ <;> rw [e1] <;> norm_num)
    (fun x y => by rcases side_cases x y with ⟨-, e1, e2⟩ | ⟨e1, e2⟩ <;> rw [e2] <;> norm_num)
  have names := disc_names ⟨"m", .simple ⟨3, 1, 1⟩⟩ 17 8 (by unfold PlainNames disc; decide) gOpen sideEps sideSig (neededCurrent pulseA sideEps sideSig) (- (gOpen.dt / 2))
  obtain ⟨w4, h⟩ := C102_program now gOpen gOpen_wide hl gOpen_T [sideDisc] sideDisc_clear pulseSources fits "v" ⟨((3 : ℤ) : ℝ), ((4 : ℤ) : ℝ)⟩ ⟨((14 : ℤ) : ℝ), ((12 : ℤ) : ℝ)⟩ freq n
    (by rw [gOpen_dx]) (by rw [gOpen_node, gOpen_node, gOpen_Nx]; decide) (by rw [gOpen_node, gOpen_node, gOpen_Ny]; decide) names.1 names.2 qty hq
  have vac : ∀ x y, x ≤ 14 → y ≤ 12 → sideEps x y = 1 ∧ sideSig x y = 0 := fun x y hx _ => by
    rcases side_cases x y with ⟨e0, e1, e2⟩ | ⟨e1, e2⟩
    · linarith
    · exact ⟨e1, e2⟩
  have C := pulse_calm (p := gOpen.toReal ⟨3, 4⟩) (q := gOpen.toReal ⟨14, 12⟩) so (fun x y hb => by
    have := in_box hb
    norm_num at this
    exact ⟨by linarith, by linarith, by linarith, by linarith⟩) late
  have N := pulse_no_current vac (n * gOpen.dt)
  have Z : ∀ x y, (x, y) ∈ between (gOpen.toReal ⟨3, 4⟩) (gOpen.toReal ⟨14, 12⟩) → sideEps x y = 1 ∧ sideSig x y = 0 := fun x y hb => by
    have := in_box hb
    norm_num at this
    exact vac x y this.2.1 this.2.2.2
  rw [← gOpen_node 3 4, ← gOpen_node 14 12] at C N Z
  refine ⟨w4, M, h, C103_empty h [sideDisc] pulseSources (objectsOf_furnish _ _).1 (objectsOf_furnish _ _).2 ?_ sideDisc_clear ?_ 3 1 ⟨by norm_num, ?_⟩ ⟨by norm_num, ?_⟩ sideEps sideSig
    sideDisc_medium pulse (fun _ _ => True) _ pulseXx pulseYy (n + 1) M 0 0 sm st ev (potential_driven pulseA_smooth _ _ _ _) cm (pulse_walls _) (pulse_rest _) fits le_rfl carry
    (by rw [hd]; linarith) C N Z⟩
  · intro o ho
    rw [List.mem_singleton.mp ho]
    exact disc_sound _ _ _
  · intro o ho
    rw [List.mem_singleton.mp ho]
    exact ⟨⟨3, 1, 1⟩, rfl, by norm_num, by norm_num⟩
  · intro o ho m hm
    rw [List.mem_singleton.mp ho] at hm
    cases hm
    exact le_rfl
  · intro o ho m hm
    rw [List.mem_singleton.mp ho] at hm
    cases hm
    norm_num

/-- A case of `C103_total` and `C103_empty_lit`: a flash of the incident wave and the pulse of other sources cross in the region. One box has the disc in it, the other is empty. -/
example (now : ℕ → ℝ) (freq : List ℝ) (n : ℕ) (hn : 31 ≤ n) (qty : Quantity ℝ) (hq : qty = .force ∨ ∃ c, qty = .torque c) (b : V2 ℤ) (hb : b = ⟨13, 12⟩ ∨ b = ⟨8, 12⟩) : ∃ w4 M Ms,
    LitFelt qty now gOpen (furnishLit [lampDisc] (discSources crossJ) litVol glint) (List.replicate n (.op .update)) [] "v" ⟨((6 : ℤ) : ℝ), ((7 : ℤ) : ℝ)⟩ ⟨(b.x : ℝ), (b.y : ℝ)⟩ freq n w4 ∧
    HoldsLorentzForce qty w4 gOpen "v" ⟨((6 : ℤ) : ℝ), ((7 : ℤ) : ℝ)⟩ ⟨(b.x : ℝ), (b.y : ℝ)⟩ freq (pulse.lit glint.resp (entry gOpen litVol))
      ((pulse.lit glint.resp (entry gOpen litVol)).currents discEps discSig crossJ) (n * gOpen.dt)
      (lorentzForceError gOpen ⟨((6 : ℤ) : ℝ), ((7 : ℤ) : ℝ)⟩ ⟨(b.x : ℝ), (b.y : ℝ)⟩ (litSize M Ms (n + 1)) (n * gOpen.dt) (litError (fun _ _ => True) gOpen litVol M Ms 3 1 (n + 1) 0 n) 0)
      (lorentzTorqueError gOpen ⟨((6 : ℤ) : ℝ), ((7 : ℤ) : ℝ)⟩ ⟨(b.x : ℝ), (b.y : ℝ)⟩ (litSize M Ms (n + 1)) (n * gOpen.dt) (litError (fun _ _ => True) gOpen litVol M Ms 3 1 (n + 1) 0 n) 0) ∧
    (b = ⟨8, 12⟩ → HoldsNoForce qty w4 gOpen "v" freq
      (lorentzForceError gOpen ⟨((6 : ℤ) : ℝ), ((7 : ℤ) : ℝ)⟩ ⟨(b.x : ℝ), (b.y : ℝ)⟩ (litSize M Ms (n + 1)) (n * gOpen.dt) (litError (fun _ _ => True) gOpen litVol M Ms 3 1 (n + 1) 0 n) 0)
      (lorentzTorqueError gOpen ⟨((6 : ℤ) : ℝ), ((7 : ℤ) : ℝ)⟩ ⟨(b.x : ℝ), (b.y : ℝ)⟩ (litSize M Ms (n + 1)) (n * gOpen.dt) (litError (fun _ _ => True) gOpen litVol M Ms 3 1 (n + 1) 0 n) 0)) := by
  obtain ⟨Ms, hM⟩ := smooth_flash
  have nn := Nat.cast_nonneg (α := ℝ) n
  have hd : gOpen.dt = 1 / 2 := by rw [gOpen_lawful.dt, gOpen_dx]
  have late : 15 < n * gOpen.dt := by
    have : (31 : ℝ) ≤ n := by exact_mod_cast hn
    rw [hd]; linarith
  have en : entry gOpen litVol = 4 := by
    unfold entry
    rw [lit_a, gOpen_dx]
    norm_num
  obtain ⟨M, M0, sm, st, ev, cm, so⟩ := potential_tame pulseA_smooth gOpen (n + 1) (eps := discEps) (sig := discSig) (em := 3) (sm := 1)
    (fun x y => by rcases discEps_cases x y with ⟨e1, e2⟩ | ⟨e1, e2⟩ <;> rw [e1] <;> norm_num)
    (fun x y => by rcases discEps_cases x y with ⟨e1, e2⟩ | ⟨e1, e2⟩ <;> rw [e2] <;> norm_num)
  have names := disc_names ⟨"m", .simple ⟨3, 1, 1⟩⟩ 10 10 (by unfold PlainNames disc; decide) gOpen discEps discSig crossJ (- (gOpen.dt / 2))
  obtain ⟨w4, h⟩ := C102_lit_program now gOpen gOpen_wide gOpen_lawful gOpen_T [lampDisc] lampDisc_clear (discSources crossJ) (discSources_fit crossJ) litVol glint lit_region "v"
    ⟨((6 : ℤ) : ℝ), ((7 : ℤ) : ℝ)⟩ ⟨(b.x : ℝ), (b.y : ℝ)⟩ freq n
    (by rw [gOpen_dx]) (by rw [gOpen_node, gOpen_node, gOpen_Nx]; rcases hb with rfl | rfl <;> decide) (by rw [gOpen_node, gOpen_node, gOpen_Ny]; rcases hb with rfl | rfl <;> decide)
    names.1 names.2 qty hq
  obtain ⟨o1, o2, o3⟩ := of_furnishLit [lampDisc] (discSources crossJ) litVol glint
  have P := disc_scatters (τ := n + 1) hM sm st ev (potential_driven pulseA_smooth _ _ _ _) cm (pulse_walls _) (pulse_rest _)
  have hin : BoxWithin gOpen litVol ⟨((6 : ℤ) : ℝ), ((7 : ℤ) : ℝ)⟩ ⟨(b.x : ℝ), (b.y : ℝ)⟩ := by unfold BoxWithin; rw [gOpen_node, gOpen_node, lit_a, lit_b]; rcases hb with rfl | rfl <;> decide
  have inb : ∀ x y, (x, y) ∈ between (gOpen.toReal ⟨6, 7⟩) (gOpen.toReal ⟨b.x, b.y⟩) → 6 ≤ x ∧ x ≤ 13 ∧ 7 ≤ y ∧ y ≤ 12 := fun x y hxy => by
    have := in_box hxy
    rcases hb with rfl | rfl <;> norm_num at this <;> exact ⟨by linarith, by linarith, by linarith, by linarith⟩
  have clr : ∀ x y : ℝ, 6 ≤ x ∧ x ≤ 13 ∧ 7 ≤ y ∧ y ≤ 12 → 2 < x ∧ x ≤ 14 ∧ 2 < y ∧ y < 13 := fun x y ⟨h1, h2, h3, h4⟩ => ⟨by linarith, by linarith, by linarith, by linarith⟩
  have C := pulse_calm so (fun x y hxy => clr x y (inb x y hxy)) late
  have F : (pulse.lit glint.resp (entry gOpen litVol)).Faded (gOpen.toReal ⟨6, 7⟩) (gOpen.toReal ⟨b.x, b.y⟩) (n * gOpen.dt) 0 := by
    intro x y hxy
    have c := inb x y hxy
    obtain ⟨k1, k2, k3⟩ := C.faded x y hxy
    have f : glint.resp (n * gOpen.dt - max 0 (y - entry gOpen litVol)) = 0 := by
      rw [en, max_eq_right (by linarith [c.2.2.1])]
      exact pulseShape_over (by linarith [c.2.2.2])
    simp only [Wave.lit]
    rw [f, add_zero, add_zero]
    exact ⟨k1, k2, k3⟩
  have N : b = ⟨8, 12⟩ → NoCurrent crossJ (gOpen.toReal ⟨6, 7⟩) (gOpen.toReal ⟨b.x, b.y⟩) (n * gOpen.dt) := by
    rintro rfl t - x y hxy
    have c := in_box hxy
    norm_num at c
    obtain ⟨d1, d2⟩ := beside_disc (y := y) c.2.1
    unfold crossJ induced
    rw [pulse_free ⟨by show 2 < x; linarith, by show x < 17; linarith, by show 2 < y; linarith, by show y < 13; linarith⟩ d1 d2, d1, d2]
    ring
  have Z : b = ⟨8, 12⟩ → ∀ x y, (x, y) ∈ between (gOpen.toReal ⟨6, 7⟩) (gOpen.toReal ⟨b.x, b.y⟩) → discEps x y = 1 ∧ discSig x y = 0 := by
    rintro rfl x y hxy
    have c := in_box hxy
    norm_num at c
    exact beside_disc c.2.1
  rw [← gOpen_node 6 7, ← gOpen_node b.x b.y] at F N Z C
  exact ⟨w4, M, Ms, h, C103_total h o1 o2 o3 P (by rw [hd]; linarith) hin C F, fun e => C103_empty_lit h o1 o2 o3 P (by rw [hd]; linarith) hin C F (N e) (Z e)⟩

end Qbox.Props
