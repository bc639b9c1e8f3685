import Verif.Props.ForceProps
import Verif.Props.LitCases

/-! # Programs that write force and torque of a box (C102) -/

namespace Qbox.Props
open Qbox Scalar Spec

/-- Programs that write force or torque exist: any objects clear of the edges, any sources that fit, any box two nodes away from the walls, any number of steps. -/
theorem C102_program (now : ℕ → ℝ) (g : Grid ℝ) (hw : g.Wide) (hl : Lawful g) (hT : g.T = 0) (objs : List (Object ℝ)) (hc : ∀ o ∈ objs, ClearOfUnguardedEdges g o)
    (srcs : List (Source ℝ)) (fits : ∀ s ∈ srcs, Fits g s) (name : String) (a b : V2 ℝ) (freq : List ℝ) (n : ℕ) (hdx : g.dx ≤ 1)
    (hx : 2 ≤ (g.toGrid a).x ∧ (g.toGrid a).x < (g.toGrid b).x ∧ (g.toGrid b).x ≤ g.Nx - 2)
    (hy : 2 ≤ (g.toGrid a).y ∧ (g.toGrid a).y < (g.toGrid b).y ∧ (g.toGrid b).y ≤ g.Ny - 2)
    (hd : DistinctNames (furnish objs srcs)) (hp : ∀ c ∈ furnish objs srcs, PlainNames c) (qty : Quantity ℝ) (hq : qty = .force ∨ ∃ c, qty = .torque c) :
    ∃ w4, BoxFelt qty now g (furnish objs srcs) (List.replicate n (.op .update)) [] name a b freq n w4 := by
  obtain ⟨m0, w1, w2, w3, h1, h2, h3, h4, h5⟩ := box_writes now g hw hl (furnish objs srcs) (fun l h => by
      rw [simOps_furnish]
      exact inside_furnish hl srcs fits l h objs [] hc)
    (fun c hcm => by
      rcases List.mem_append.mp hcm with hcm | hcm
      · obtain ⟨o, -, rfl⟩ := List.mem_map.mp hcm; exact .inl ⟨o, rfl⟩
      · obtain ⟨o, -, rfl⟩ := List.mem_map.mp hcm; exact .inr (.inl ⟨o, rfl⟩)) name a b .all (.inl rfl) freq n hdx hx hy hd hp qty (.inr ⟨rfl, hq⟩)
  refine ⟨w3, ⟨hl, hT, hdx, hw, h4, h5, hx, hy, m0, w1, w2, w3, h1, h2, h3, rfl⟩, ?_⟩
  intro op ho
  rw [simOps_furnish] at ho
  rcases List.mem_append.mp ho with ho | ho
  · obtain ⟨o, -, rfl⟩ := List.mem_map.mp ho
    exact .inr (.inl ⟨o, rfl⟩)
  · obtain ⟨o, -, rfl⟩ := List.mem_map.mp ho
    exact .inr (.inr ⟨o, rfl⟩)

/-- The same with an incident wave in any region. -/
theorem C102_lit_program (now : ℕ → ℝ) (g : Grid ℝ) (hw : g.Wide) (hl : Lawful g) (hT : g.T = 0) (objs : List (Object ℝ)) (hc : ∀ o ∈ objs, ClearOfUnguardedEdges g o)
    (srcs : List (Source ℝ)) (fits : ∀ s ∈ srcs, Fits g s) (vol : Vol ℝ) (tp : TimeProfile ℝ) (hv : ClearRegion g (g.toGrid vol.a) (g.toGrid vol.b)) (name : String) (a b : V2 ℝ)
    (freq : List ℝ) (n : ℕ) (hdx : g.dx ≤ 1)
    (hx : 2 ≤ (g.toGrid a).x ∧ (g.toGrid a).x < (g.toGrid b).x ∧ (g.toGrid b).x ≤ g.Nx - 2)
    (hy : 2 ≤ (g.toGrid a).y ∧ (g.toGrid a).y < (g.toGrid b).y ∧ (g.toGrid b).y ≤ g.Ny - 2)
    (hd : DistinctNames (furnish objs srcs)) (hp : ∀ c ∈ furnish objs srcs, PlainNames c) (qty : Quantity ℝ) (hq : qty = .force ∨ ∃ c, qty = .torque c) :
    ∃ w4, LitFelt qty now g (furnishLit objs srcs vol tp) (List.replicate n (.op .update)) [] name a b freq n w4 := by
  obtain ⟨k1, k2, k3, k4, k5⟩ := furnishLit_fine g hl hT objs hc srcs fits vol tp hv hd hp
  obtain ⟨m0, w1, w2, w3, h1, h2, h3, h4, h5⟩ := box_writes now g hw hl (furnishLit objs srcs vol tp) k1 k2 name a b .all (.inl rfl) freq n hdx hx hy k3 k4 qty (.inr ⟨rfl, hq⟩)
  exact ⟨w3, ⟨hl, hT, hdx, hw, h4, h5, hx, hy, m0, w1, w2, w3, h1, h2, h3, rfl⟩, k5⟩

/-- A non-trivial case of `C102_simple`: the force and the torque of the lamp at the conducting dielectric disc on the box between the nodes (3, 4) and (14, 12). -/
example (now : ℕ → ℝ) (freq : List ℝ) (n : ℕ) (qty : Quantity ℝ) (hq : qty = .force ∨ ∃ c, qty = .torque c) : ∃ w4,
    BoxFelt qty now gOpen (furnish [lampDisc] lampSources) (List.replicate n (.op .update)) [] "v" ⟨((3 : ℤ) : ℝ), ((4 : ℤ) : ℝ)⟩ ⟨((14 : ℤ) : ℝ), ((12 : ℤ) : ℝ)⟩ freq n w4 ∧
    HoldsPush qty w4 gOpen "v" ⟨((3 : ℤ) : ℝ), ((4 : ℤ) : ℝ)⟩ ⟨((14 : ℤ) : ℝ), ((12 : ℤ) : ℝ)⟩  freq lamp (n * gOpen.dt) 1
      (restError (fun _ _ => True) gOpen 1 3 + n * gOpen.dt * drivenError (fun _ _ => True) gOpen 1 3 1 0) := by
  have hl : Lawful gOpen := gOpen_lawful
  have nn := Nat.cast_nonneg (α := ℝ) n
  have hd : gOpen.dt = 1 / 2 := by rw [hl.dt, gOpen_dx]
  have fits : ∀ s ∈ lampSources, Fits gOpen s := renamed_fits (radiators_fit hl _ _ _ _)
  have carry : Spec.Carries gOpen lampSources discEps discSig lampJ (n + 1) 0 := by
    refine renamed_carry (radiators_carry hl lampJ (fun i j _ => ?_) fun m i j _ _ => ?_)
    · rcases discEps_cases (i * gOpen.dx) (j * gOpen.dx) with ⟨e1, e2⟩ | ⟨e1, e2⟩ <;> rw [e1, e2] <;> norm_num
    · rw [show ((m : ℝ) + 1) * gOpen.dt + - (gOpen.dt / 2) = (m + 1 / 2) * gOpen.dt by ring, sub_self, abs_zero]
  obtain ⟨w4, h⟩ := C102_program now gOpen gOpen_wide hl gOpen_T [lampDisc] lampDisc_clear lampSources fits "v" ⟨((3 : ℤ) : ℝ), ((4 : ℤ) : ℝ)⟩ ⟨((14 : ℤ) : ℝ), ((12 : ℤ) : ℝ)⟩ freq n
    (by rw [gOpen_dx]) (by rw [gOpen_node, gOpen_node, gOpen_Nx]; decide) (by rw [gOpen_node, gOpen_node, gOpen_Ny]; decide)
    lamp_names.1 lamp_names.2 qty hq
  refine ⟨w4, h, C102_simple h [lampDisc] lampSources (objectsOf_furnish _ _).1 (objectsOf_furnish _ _).2 ?_ lampDisc_clear ?_ 3 1 ⟨by norm_num, ?_⟩ ⟨by norm_num, ?_⟩ discEps discSig
    lampDisc_medium lamp (fun _ _ => True) lampJ (n + 1) 1 0 (lamp_smooth _ _) (lamp_steady _ _) (lamp_even _ _) (lamp_driven _ _) (lampJ_at_most _ _) (lamp_walls _) (lamp_rest _) fits le_rfl carry
    (by rw [hd]; linarith)⟩
  · intro o ho
    rw [List.mem_singleton.mp ho]
    exact disc_sound _ _ _
  · intro o ho
    rw [List.mem_singleton.mp ho]
    exact ⟨⟨3, 1, 1⟩, rfl, by norm_num, by norm_num⟩
  · intro o ho m hm
    rw [List.mem_singleton.mp ho] at hm
    cases hm
    exact le_rfl
  · intro o ho m hm
    rw [List.mem_singleton.mp ho] at hm
    cases hm
    norm_num

/-- The disc in the incident wave that rises smoothly: force and torque on a box around the region and on one inside it. -/
theorem disc_pushed (now : ℕ → ℝ) (freq : List ℝ) (n : ℕ) (qty : Quantity ℝ) (hq : qty = .force ∨ ∃ c, qty = .torque c) (a b : V2 ℤ) (hx : 2 ≤ a.x ∧ a.x < b.x ∧ b.x ≤ 18)
    (hy : 2 ≤ a.y ∧ a.y < b.y ∧ b.y ≤ 18) :
    ∃ w4, LitFelt qty now gOpen (furnishLit [lampDisc] (discSources litJ) litVol rise) (List.replicate n (.op .update)) [] "v" ⟨(a.x : ℝ), (a.y : ℝ)⟩ ⟨(b.x : ℝ), (b.y : ℝ)⟩ freq n w4 := by
  have names := disc_names ⟨"m", .simple ⟨3, 1, 1⟩⟩ 10 10 (by unfold PlainNames disc; decide) gOpen discEps discSig litJ (- (gOpen.dt / 2))
  exact C102_lit_program now gOpen gOpen_wide gOpen_lawful gOpen_T [lampDisc] lampDisc_clear (discSources litJ) (discSources_fit litJ) litVol rise lit_region "v" _ _ freq n
    (by rw [gOpen_dx]) (by rw [gOpen_node, gOpen_node, gOpen_Nx]; exact hx) (by rw [gOpen_node, gOpen_node, gOpen_Ny]; exact hy) names.1 names.2 qty hq

example (now : ℕ → ℝ) (freq : List ℝ) (n : ℕ) (qty : Quantity ℝ) (hq : qty = .force ∨ ∃ c, qty = .torque c) : ∃ w4 Ms,
    LitFelt qty now gOpen (furnishLit [lampDisc] (discSources litJ) litVol rise) (List.replicate n (.op .update)) [] "v" ⟨((3 : ℤ) : ℝ), ((4 : ℤ) : ℝ)⟩ ⟨((17 : ℤ) : ℝ), ((17 : ℤ) : ℝ)⟩
      freq n w4 ∧
    HoldsPush qty w4 gOpen "v" ⟨((3 : ℤ) : ℝ), ((4 : ℤ) : ℝ)⟩ ⟨((17 : ℤ) : ℝ), ((17 : ℤ) : ℝ)⟩ freq lamp (n * gOpen.dt) 1 (litError (fun _ _ => True) gOpen litVol 1 Ms 3 1 (n + 1) 0 n) := by
  obtain ⟨Ms, hM⟩ := smooth_rise
  have nn := Nat.cast_nonneg (α := ℝ) n
  have hd : gOpen.dt = 1 / 2 := by rw [gOpen_lawful.dt, gOpen_dx]
  obtain ⟨w4, h⟩ := disc_pushed now freq n qty hq ⟨3, 4⟩ ⟨17, 17⟩ (by decide) (by decide)
  obtain ⟨o1, o2, o3⟩ := of_furnishLit [lampDisc] (discSources litJ) litVol rise
  exact ⟨w4, Ms, h, C102_scattered h o1 o2 o3
    (disc_scatters (τ := n + 1) hM (lamp_smooth _ _) (lamp_steady _ _) (lamp_even _ _) (lamp_driven _ _) (lampJ_at_most _ _) (lamp_walls _) (lamp_rest _)) (by rw [hd]; linarith)
    (by unfold BoxAround; rw [gOpen_node, gOpen_node, lit_a, lit_b]; decide)⟩

/-- A case of `C102_total`: the push of the light on the disc. -/
example (now : ℕ → ℝ) (freq : List ℝ) (n : ℕ) (qty : Quantity ℝ) (hq : qty = .force ∨ ∃ c, qty = .torque c) : ∃ w4 Ms,
    LitFelt qty now gOpen (furnishLit [lampDisc] (discSources litJ) litVol rise) (List.replicate n (.op .update)) [] "v" ⟨((7 : ℤ) : ℝ), ((8 : ℤ) : ℝ)⟩ ⟨((13 : ℤ) : ℝ), ((13 : ℤ) : ℝ)⟩
      freq n w4 ∧
    HoldsPush qty w4 gOpen "v" ⟨((7 : ℤ) : ℝ), ((8 : ℤ) : ℝ)⟩ ⟨((13 : ℤ) : ℝ), ((13 : ℤ) : ℝ)⟩ freq (lamp.lit rise.resp (entry gOpen litVol)) (n * gOpen.dt) (litSize 1 Ms (n + 1))
      (litError (fun _ _ => True) gOpen litVol 1 Ms 3 1 (n + 1) 0 n) := by
  obtain ⟨Ms, hM⟩ := smooth_rise
  have nn := Nat.cast_nonneg (α := ℝ) n
  have hd : gOpen.dt = 1 / 2 := by rw [gOpen_lawful.dt, gOpen_dx]
  obtain ⟨w4, h⟩ := disc_pushed now freq n qty hq ⟨7, 8⟩ ⟨13, 13⟩ (by decide) (by decide)
  obtain ⟨o1, o2, o3⟩ := of_furnishLit [lampDisc] (discSources litJ) litVol rise
  exact ⟨w4, Ms, h, C102_total h o1 o2 o3
    (disc_scatters (τ := n + 1) hM (lamp_smooth _ _) (lamp_steady _ _) (lamp_even _ _) (lamp_driven _ _) (lampJ_at_most _ _) (lamp_walls _) (lamp_rest _)) (by rw [hd]; linarith)
    (by unfold BoxWithin; rw [gOpen_node, gOpen_node, lit_a, lit_b]; decide)⟩

end Qbox.Props
