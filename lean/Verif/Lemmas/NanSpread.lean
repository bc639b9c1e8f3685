import Verif.Lemmas.Number
import Verif.Lemmas.PmlOutside

/-!
# NaN stays and spreads
-/

namespace Qbox
open Scalar Spec Spec.Xr

namespace Nan

@[simp] theorem nan_add (x : Xr) : nan + x = nan := by cases x <;> rfl
@[simp] theorem add_nan (x : Xr) : x + nan = nan := by cases x <;> rfl
@[simp] theorem neg_nan : (-nan : Xr) = nan := rfl
@[simp] theorem nan_sub (x : Xr) : nan - x = nan := nan_add _
@[simp] theorem sub_nan (x : Xr) : x - nan = nan := add_nan _
@[simp] theorem nan_mul (x : Xr) : nan * x = nan := by cases x <;> rfl
@[simp] theorem mul_nan (x : Xr) : x * nan = nan := by cases x <;> rfl
@[simp] theorem nan_div (x : Xr) : nan / x = nan := by cases x <;> rfl
@[simp] theorem div_nan (x : Xr) : x / nan = nan := by cases x <;> rfl
@[simp] theorem exp_nan : Scalar.exp nan = nan := rfl
@[simp] theorem npow_nan (n : ℕ) : npow nan (n + 1) = nan := mul_nan _

/-- No NaN disappears. -/
def Sticks (a b : Tensor Xr) : Prop := ∀ i j, a.val i j = nan → b.val i j = nan

theorem Sticks.refl (a : Tensor Xr) : Sticks a a := fun _ _ h => h
theorem Sticks.trans {a b c : Tensor Xr} (h : Sticks a b) (k : Sticks b c) : Sticks a c := fun i j e => k i j (h i j e)

section
variable {K : Type} [Scalar K]

theorem rd_inv {a : Tensor K} {i j : ℤ} {v : K} (h : a.rd i j = .ok v) : v = a.val i j := by
  unfold Tensor.rd at h
  split_ifs at h
  cases h; rfl

theorem ard_inv {a : Arr K} {i : ℤ} {v : K} (h : a.rd i = .ok v) : v = a.val i := by
  unfold Arr.rd at h
  split_ifs at h
  cases h; rfl

theorem wr_inv {a b : Tensor K} {i j : ℤ} {v : K} (h : a.wr i j v = .ok b) (x y : ℤ) :
    b.val x y = if x = i ∧ y = j then v else a.val x y := by
  unfold Tensor.wr at h
  split_ifs at h
  cases h; rfl

theorem awr_inv {a b : Arr K} {i : ℤ} {v : K} (h : a.wr i v = .ok b) (x : ℤ) : b.val x = if x = i then v else a.val x := by
  unfold Arr.wr at h
  split_ifs at h
  cases h; rfl

/-- A loop that reaches `Q` in one iteration and keeps it in the others. -/
theorem forRange_hit {σ : Type} {lo hi : ℤ} {body : ℤ → σ → M σ} (Q : σ → Prop) (i0 : ℤ) (h1 : lo ≤ i0) (h2 : i0 < hi)
    (hit : ∀ s s', body i0 s = .ok s' → Q s') (keep : ∀ i, lo ≤ i → i < hi → ∀ s s', body i s = .ok s' → Q s → Q s') :
    ∀ s s', forRange lo hi s body = .ok s' → Q s' := by
  intro s s' he
  rw [forRange_eq_forList] at he
  have : ∀ l : List ℤ, (∀ i ∈ l, lo ≤ i ∧ i < hi) → ∀ s s', (Q s ∨ i0 ∈ l) → forList l s body = .ok s' → Q s' := by
    intro l
    induction l with
    | nil =>
      intro _ s s' h h3
      cases h3
      rcases h with h | h
      · exact h
      · cases h
    | cons a l ih =>
      intro hl s s' h h3
      rw [forList_cons] at h3
      obtain ⟨s1, h4, h5⟩ := (Except.bind_ok ..).mp h3
      refine ih (fun i hi => hl i (by simp [hi])) s1 s' ?_ h5
      rcases h with h | h
      · exact .inl (keep a (hl a (by simp)).1 (hl a (by simp)).2 _ _ h4 h)
      · rcases List.mem_cons.mp h with rfl | h
        · exact .inl (hit _ _ h4)
        · exact .inr h
  exact this _ (fun i hi => mem_intRange.mp hi) s s' (.inr (mem_intRange.mpr ⟨h1, h2⟩)) he
end

theorem sticks_wr {a b : Tensor Xr} {i j : ℤ} {v : Xr} (h : a.wr i j v = .ok b) (hv : a.val i j = nan → v = nan) : Sticks a b := by
  intro x y e
  rw [wr_inv h]
  split_ifs with hc
  · obtain ⟨rfl, rfl⟩ := hc; exact hv e
  · exact e

theorem sticks_loop {lo hi : ℤ} {σ : Type} (F : σ → Tensor Xr) {body : ℤ → σ → M σ}
    (h : ∀ i s s', body i s = .ok s' → Sticks (F s) (F s')) {s s' : σ} (e : forRange lo hi s body = .ok s') : Sticks (F s) (F s') :=
  forRange_ok_rel (fun s s' => Sticks (F s) (F s')) (fun s => .refl _) (fun _ _ _ => .trans) lo hi body (fun i _ _ => h i) s s' e

theorem sticks_addTo {a b : Tensor Xr} {i j : ℤ} {v : Xr} (h : a.addTo i j v = .ok b) : Sticks a b := by
  obtain ⟨x, h1, h⟩ := (Except.bind_ok ..).mp h
  exact sticks_wr h fun e => by rw [rd_inv h1, e, nan_add]

/-! ## The electric field -/

theorem ez_body {Hx Hy Ca Cb : Tensor Xr} {kx ky : Arr Xr} {i j : ℤ} {a b : Tensor Xr} (h : ezBody Hx Hy Ca Cb kx ky i j a = .ok b) :
    Sticks a b ∧ (Hx.val i (j - 1) = nan → b.val i j = nan) := by
  unfold ezBody at h
  obtain ⟨x1, h1, h⟩ := (Except.bind_ok ..).mp h
  obtain ⟨x2, h2, h⟩ := (Except.bind_ok ..).mp h
  obtain ⟨x3, h3, h⟩ := (Except.bind_ok ..).mp h
  obtain ⟨x4, h4, h⟩ := (Except.bind_ok ..).mp h
  obtain ⟨x5, h5, h⟩ := (Except.bind_ok ..).mp h
  obtain ⟨x6, h6, h⟩ := (Except.bind_ok ..).mp h
  obtain ⟨x7, h7, h⟩ := (Except.bind_ok ..).mp h
  obtain ⟨x8, h8, h⟩ := (Except.bind_ok ..).mp h
  obtain ⟨x9, h9, h⟩ := (Except.bind_ok ..).mp h
  refine ⟨sticks_wr h fun e => by rw [rd_inv h2, e]; simp, fun e => ?_⟩
  rw [wr_inv h, if_pos ⟨rfl, rfl⟩, rd_inv h7, e]
  simp

theorem ezLoop_sticks {Nx Ny : ℤ} {f : Flds Xr} {sc : Scaling Xr} {E : Tensor Xr} (h : ezLoop Nx Ny f sc = .ok E) : Sticks f.Ez E :=
  sticks_loop id (fun _ _ _ h => sticks_loop id (fun _ _ _ h => (ez_body h).1) h) h

theorem ezLoop_spread {Nx Ny : ℤ} {f : Flds Xr} {sc : Scaling Xr} {E : Tensor Xr} (h : ezLoop Nx Ny f sc = .ok E) {i j : ℤ}
    (h1 : 1 ≤ i) (h2 : i < Nx - 1) (h3 : 1 ≤ j) (h4 : j < Ny - 1) (e : f.Hx.val i (j - 1) = nan) : E.val i j = nan :=
  forRange_hit (fun E => E.val i j = nan) i h1 h2
    (fun s s' h => forRange_hit (fun E => E.val i j = nan) j h3 h4 (fun s s' h => (ez_body h).2 e) (fun _ _ _ _ _ h => (ez_body h).1 i j) s s' h)
    (fun _ _ _ _ _ h => sticks_loop id (fun _ _ _ h => (ez_body h).1) h i j) _ _ h

theorem pmlEy_body {be ce : Arr Xr} {dx : Xr} {je : ℤ} {Hx Cb : Tensor Xr} {i j : ℤ} {s s' : Psi2 Xr}
    (h : pmlEyBody be ce dx je Hx Cb i j s = .ok s') : Sticks s.F s'.F ∧ (be.val j = nan → s'.F.val i j = nan) := by
  unfold pmlEyBody at h
  obtain ⟨x1, h1, h⟩ := (Except.bind_ok ..).mp h
  obtain ⟨x2, h2, h⟩ := (Except.bind_ok ..).mp h
  obtain ⟨x3, h3, h⟩ := (Except.bind_ok ..).mp h
  obtain ⟨x4, h4, h⟩ := (Except.bind_ok ..).mp h
  obtain ⟨x5, h5, h⟩ := (Except.bind_ok ..).mp h
  obtain ⟨p1, hp1, h⟩ := (Except.bind_ok ..).mp h
  obtain ⟨y1, k1, h⟩ := (Except.bind_ok ..).mp h
  obtain ⟨y2, k2, h⟩ := (Except.bind_ok ..).mp h
  obtain ⟨y3, k3, h⟩ := (Except.bind_ok ..).mp h
  obtain ⟨y4, k4, h⟩ := (Except.bind_ok ..).mp h
  obtain ⟨y5, k5, h⟩ := (Except.bind_ok ..).mp h
  obtain ⟨p2, hp2, h⟩ := (Except.bind_ok ..).mp h
  obtain ⟨z1, m1, h⟩ := (Except.bind_ok ..).mp h
  obtain ⟨z2, m2, h⟩ := (Except.bind_ok ..).mp h
  obtain ⟨z3, m3, h⟩ := (Except.bind_ok ..).mp h
  obtain ⟨F1, hF1, h⟩ := (Except.bind_ok ..).mp h
  obtain ⟨w1, n1, h⟩ := (Except.bind_ok ..).mp h
  obtain ⟨w2, n2, h⟩ := (Except.bind_ok ..).mp h
  obtain ⟨w3, n3, h⟩ := (Except.bind_ok ..).mp h
  obtain ⟨F2, hF2, h⟩ := (Except.bind_ok ..).mp h
  cases h
  have s1 : Sticks s.F F1 := sticks_wr hF1 fun e => by rw [rd_inv m1, e, nan_sub]
  have s2 : Sticks F1 F2 := sticks_wr hF2 fun e => by rw [rd_inv n1, e, nan_sub]
  refine ⟨s1.trans s2, fun e => s2 i j ?_⟩
  rw [wr_inv hF1, if_pos ⟨rfl, rfl⟩, rd_inv m3, wr_inv hp1, if_pos ⟨rfl, rfl⟩, ard_inv h1, e]
  simp

theorem pmlEx_body {be ce : Arr Xr} {dx : Xr} {ie : ℤ} {Hy Cb : Tensor Xr} {i j : ℤ} {s s' : Psi2 Xr}
    (h : pmlExBody be ce dx ie Hy Cb i j s = .ok s') : Sticks s.F s'.F := by
  unfold pmlExBody at h
  obtain ⟨x1, h1, h⟩ := (Except.bind_ok ..).mp h
  obtain ⟨x2, h2, h⟩ := (Except.bind_ok ..).mp h
  obtain ⟨x3, h3, h⟩ := (Except.bind_ok ..).mp h
  obtain ⟨x4, h4, h⟩ := (Except.bind_ok ..).mp h
  obtain ⟨x5, h5, h⟩ := (Except.bind_ok ..).mp h
  obtain ⟨p1, hp1, h⟩ := (Except.bind_ok ..).mp h
  obtain ⟨y1, k1, h⟩ := (Except.bind_ok ..).mp h
  obtain ⟨y2, k2, h⟩ := (Except.bind_ok ..).mp h
  obtain ⟨y3, k3, h⟩ := (Except.bind_ok ..).mp h
  obtain ⟨y4, k4, h⟩ := (Except.bind_ok ..).mp h
  obtain ⟨y5, k5, h⟩ := (Except.bind_ok ..).mp h
  obtain ⟨p2, hp2, h⟩ := (Except.bind_ok ..).mp h
  obtain ⟨z1, m1, h⟩ := (Except.bind_ok ..).mp h
  obtain ⟨z2, m2, h⟩ := (Except.bind_ok ..).mp h
  obtain ⟨z3, m3, h⟩ := (Except.bind_ok ..).mp h
  obtain ⟨F1, hF1, h⟩ := (Except.bind_ok ..).mp h
  obtain ⟨w1, n1, h⟩ := (Except.bind_ok ..).mp h
  obtain ⟨w2, n2, h⟩ := (Except.bind_ok ..).mp h
  obtain ⟨w3, n3, h⟩ := (Except.bind_ok ..).mp h
  obtain ⟨F2, hF2, h⟩ := (Except.bind_ok ..).mp h
  cases h
  have s1 : Sticks s.F F1 := sticks_wr hF1 fun e => by rw [rd_inv m1, e, nan_add]
  have s2 : Sticks F1 F2 := sticks_wr hF2 fun e => by rw [rd_inv n1, e, nan_add]
  exact s1.trans s2

theorem updateE_nan {p p' : Pml Xr} {Hx Hy Cb E E' : Tensor Xr} (h : p.updateE Hx Hy Cb E = .ok (p', E')) :
    Sticks E E' ∧ p'.Nx = p.Nx ∧ p'.Ny = p.Ny ∧ p'.par = p.par ∧ p'.co = p.co ∧
    (1 ≤ p.par.T → p.co.be_y.val 1 = nan → ∀ i, 1 ≤ i → i < p.Nx - 1 → E'.val i 1 = nan) := by
  unfold Pml.updateE at h
  obtain ⟨s, h1, h⟩ := (Except.bind_ok ..).mp h
  obtain ⟨r, h2, h⟩ := (Except.bind_ok ..).mp h
  cases h
  have s1 : Sticks E s.F := sticks_loop Psi2.F (fun _ _ _ h => sticks_loop Psi2.F (fun _ _ _ h => (pmlEy_body h).1) h) h1
  have s2 := sticks_loop Psi2.F (fun _ _ _ h => sticks_loop Psi2.F (fun _ _ _ h => pmlEx_body h) h) h2
  refine ⟨s1.trans s2, rfl, rfl, rfl, rfl, fun hT e i hi hi' => s2 i 1 ?_⟩
  exact forRange_hit (fun s => s.F.val i 1 = nan) i hi hi'
    (fun _ _ h => forRange_hit (fun s => s.F.val i 1 = nan) 1 (le_refl _) (by omega) (fun _ _ h => (pmlEy_body h).2 e)
      (fun _ _ _ _ _ h => (pmlEy_body h).1 i 1) _ _ h)
    (fun _ _ _ _ _ h => sticks_loop Psi2.F (fun _ _ _ h => (pmlEy_body h).1) h i 1) _ _ h1

theorem debyeJ_sticks {g : Grid Xr} {P P' : DebyePol Xr} {pE : Option (Tensor Xr)} {E E' : Tensor Xr}
    (h : P.updateJ g pE E = .ok (P', E')) : Sticks E E' := by
  unfold DebyePol.updateJ at h
  obtain ⟨s, hl, h0⟩ := (Except.bind_ok ..).mp h
  cases h0
  refine sticks_loop EJ.Ez (fun _ _ _ h => sticks_loop EJ.Ez (fun _ _ _ h => sticks_loop EJ.Ez (fun _ s s' h => ?_) h) h) hl
  unfold debyeBody at h
  obtain ⟨x1, h1, h⟩ := (Except.bind_ok ..).mp h
  obtain ⟨x2, h2, h⟩ := (Except.bind_ok ..).mp h
  obtain ⟨x3, h3, h⟩ := (Except.bind_ok ..).mp h
  obtain ⟨F, hF, h⟩ := (Except.bind_ok ..).mp h
  have : s'.Ez = F := by
    repeat obtain ⟨_, _, h⟩ := (Except.bind_ok ..).mp h
    cases h; rfl
  rw [this]
  exact sticks_wr hF fun e => by rw [rd_inv h1, e, nan_sub]

theorem drudeJ_sticks {g : Grid Xr} {P P' : DrudePol Xr} {pE : Option (Tensor Xr)} {E E' : Tensor Xr}
    (h : P.updateJ g pE E = .ok (P', E')) : Sticks E E' := by
  unfold DrudePol.updateJ at h
  obtain ⟨s, hl, h0⟩ := (Except.bind_ok ..).mp h
  cases h0
  refine sticks_loop EJ.Ez (fun _ _ _ h => sticks_loop EJ.Ez (fun _ _ _ h => sticks_loop EJ.Ez (fun _ s s' h => ?_) h) h) hl
  unfold drudeBody at h
  obtain ⟨x1, h1, h⟩ := (Except.bind_ok ..).mp h
  obtain ⟨x2, h2, h⟩ := (Except.bind_ok ..).mp h
  obtain ⟨x3, h3, h⟩ := (Except.bind_ok ..).mp h
  obtain ⟨F, hF, h⟩ := (Except.bind_ok ..).mp h
  have : s'.Ez = F := by
    repeat obtain ⟨_, _, h⟩ := (Except.bind_ok ..).mp h
    cases h; rfl
  rw [this]
  exact sticks_wr hF fun e => by rw [rd_inv h1, e, nan_sub]

theorem lorentzJ_sticks {g : Grid Xr} {P P' : LorentzPol Xr} {pE : Option (Tensor Xr)} {E E' : Tensor Xr}
    (h : P.updateJ g pE E = .ok (P', E')) : Sticks E E' := by
  unfold LorentzPol.updateJ at h
  obtain ⟨s, hl, h0⟩ := (Except.bind_ok ..).mp h
  cases h0
  refine sticks_loop EJJ.Ez (fun _ _ _ h => sticks_loop EJJ.Ez (fun _ _ _ h => sticks_loop EJJ.Ez (fun _ s s' h => ?_) h) h) hl
  unfold lorentzBody at h
  obtain ⟨x0, h0, h⟩ := (Except.bind_ok ..).mp h
  obtain ⟨x1, h1, h⟩ := (Except.bind_ok ..).mp h
  obtain ⟨x2, h2, h⟩ := (Except.bind_ok ..).mp h
  obtain ⟨x3, h3, h⟩ := (Except.bind_ok ..).mp h
  obtain ⟨x4, h4, h⟩ := (Except.bind_ok ..).mp h
  obtain ⟨x5, h5, h⟩ := (Except.bind_ok ..).mp h
  obtain ⟨x6, h6, h⟩ := (Except.bind_ok ..).mp h
  obtain ⟨F, hF, h⟩ := (Except.bind_ok ..).mp h
  have : s'.Ez = F := by
    repeat obtain ⟨_, _, h⟩ := (Except.bind_ok ..).mp h
    cases h; rfl
  rw [this]
  exact sticks_wr hF fun e => by rw [rd_inv h1, e, nan_add]

theorem mapJ_sticks {α : Type} {upd : α → Tensor Xr → M (α × Tensor Xr)} (hu : ∀ P P' E E', upd P E = .ok (P', E') → Sticks E E') :
    ∀ (l l' : List (String × α)) (E E' : Tensor Xr), mapUpdateJ upd l E = .ok (l', E') → Sticks E E'
  | [], l', E, E', h => by cases h; exact .refl _
  | (n, P) :: l, l', E, E', h => by
    unfold mapUpdateJ at h
    obtain ⟨⟨P', E1⟩, h1, h⟩ := (Except.bind_ok ..).mp h
    obtain ⟨⟨m, E2⟩, h2, h⟩ := (Except.bind_ok ..).mp h
    cases h
    exact (hu _ _ _ _ h1).trans (mapJ_sticks hu _ _ _ _ h2)

theorem optD_sticks {o : Option (Tfsf Xr)} {E E' : Tensor Xr} (h : optUpdateD o E = .ok E') : Sticks E E' := by
  cases o with
  | none => cases h; exact .refl _
  | some w =>
    refine sticks_loop id (fun i s s' h => ?_) (show w.updateD E = .ok E' from h)
    obtain ⟨_, -, h⟩ := (Except.bind_ok ..).mp h
    obtain ⟨F, h1, h⟩ := (Except.bind_ok ..).mp h
    obtain ⟨_, -, h⟩ := (Except.bind_ok ..).mp h
    exact (sticks_addTo h1).trans (sticks_addTo h)

/-! ## The magnetic field -/

theorem h_body {Ez Da Db : Tensor Xr} {kx ky : Arr Xr} {i j : ℤ} {a b : HPair Xr} (h : hBody Ez Da Db kx ky i j a = .ok b) :
    Sticks a.Hx b.Hx ∧ (Ez.val i j = nan → b.Hx.val i j = nan) := by
  unfold hBody at h
  obtain ⟨x1, h1, h⟩ := (Except.bind_ok ..).mp h
  obtain ⟨x2, h2, h⟩ := (Except.bind_ok ..).mp h
  obtain ⟨x3, h3, h⟩ := (Except.bind_ok ..).mp h
  obtain ⟨x4, h4, h⟩ := (Except.bind_ok ..).mp h
  obtain ⟨x5, h5, h⟩ := (Except.bind_ok ..).mp h
  obtain ⟨x6, h6, h⟩ := (Except.bind_ok ..).mp h
  obtain ⟨F, hF, h⟩ := (Except.bind_ok ..).mp h
  have : b.Hx = F := by
    repeat obtain ⟨_, _, h⟩ := (Except.bind_ok ..).mp h
    cases h; rfl
  rw [this]
  refine ⟨sticks_wr hF fun e => by rw [rd_inv h2, e]; simp, fun e => ?_⟩
  rw [wr_inv hF, if_pos ⟨rfl, rfl⟩, rd_inv h5, e]
  simp

theorem hLoop_sticks {Nx Ny : ℤ} {f : Flds Xr} {sc : Scaling Xr} {H : HPair Xr} (h : hLoop Nx Ny f sc = .ok H) : Sticks f.Hx H.Hx :=
  sticks_loop HPair.Hx (fun _ _ _ h => sticks_loop HPair.Hx (fun _ _ _ h => (h_body h).1) h) h

theorem hLoop_spread {Nx Ny : ℤ} {f : Flds Xr} {sc : Scaling Xr} {H : HPair Xr} (h : hLoop Nx Ny f sc = .ok H) {i j : ℤ}
    (h1 : 1 ≤ i) (h2 : i < Nx - 1) (h3 : 1 ≤ j) (h4 : j < Ny - 1) (e : f.Ez.val i j = nan) : H.Hx.val i j = nan :=
  forRange_hit (fun s : HPair Xr => s.Hx.val i j = nan) i h1 h2
    (fun s s' h => forRange_hit (fun s : HPair Xr => s.Hx.val i j = nan) j h3 h4 (fun s s' h => (h_body h).2 e)
      (fun _ _ _ _ _ h => (h_body h).1 i j) s s' h)
    (fun _ _ _ _ _ h => sticks_loop HPair.Hx (fun _ _ _ h => (h_body h).1) h i j) _ _ h

theorem pmlHy_body {bh ch : Arr Xr} {dx : Xr} {je : ℤ} {Ez Db : Tensor Xr} {i j : ℤ} {s s' : Psi2 Xr}
    (h : pmlHyBody bh ch dx je Ez Db i j s = .ok s') : Sticks s.F s'.F := by
  unfold pmlHyBody at h
  obtain ⟨x1, h1, h⟩ := (Except.bind_ok ..).mp h
  obtain ⟨x2, h2, h⟩ := (Except.bind_ok ..).mp h
  obtain ⟨x3, h3, h⟩ := (Except.bind_ok ..).mp h
  obtain ⟨x4, h4, h⟩ := (Except.bind_ok ..).mp h
  obtain ⟨x5, h5, h⟩ := (Except.bind_ok ..).mp h
  obtain ⟨p1, hp1, h⟩ := (Except.bind_ok ..).mp h
  obtain ⟨y1, k1, h⟩ := (Except.bind_ok ..).mp h
  obtain ⟨y2, k2, h⟩ := (Except.bind_ok ..).mp h
  obtain ⟨y3, k3, h⟩ := (Except.bind_ok ..).mp h
  obtain ⟨y4, k4, h⟩ := (Except.bind_ok ..).mp h
  obtain ⟨y5, k5, h⟩ := (Except.bind_ok ..).mp h
  obtain ⟨p2, hp2, h⟩ := (Except.bind_ok ..).mp h
  obtain ⟨z1, m1, h⟩ := (Except.bind_ok ..).mp h
  obtain ⟨z2, m2, h⟩ := (Except.bind_ok ..).mp h
  obtain ⟨z3, m3, h⟩ := (Except.bind_ok ..).mp h
  obtain ⟨F1, hF1, h⟩ := (Except.bind_ok ..).mp h
  obtain ⟨w1, n1, h⟩ := (Except.bind_ok ..).mp h
  obtain ⟨w2, n2, h⟩ := (Except.bind_ok ..).mp h
  obtain ⟨w3, n3, h⟩ := (Except.bind_ok ..).mp h
  obtain ⟨F2, hF2, h⟩ := (Except.bind_ok ..).mp h
  cases h
  have s1 : Sticks s.F F1 := sticks_wr hF1 fun e => by rw [rd_inv m1, e, nan_sub]
  have s2 : Sticks F1 F2 := sticks_wr hF2 fun e => by rw [rd_inv n1, e, nan_sub]
  exact s1.trans s2

theorem updateH_nan {p p' : Pml Xr} {Ez Db X Y X' Y' : Tensor Xr} (h : p.updateH Ez Db X Y = .ok (p', X', Y')) :
    Sticks X X' ∧ p'.Nx = p.Nx ∧ p'.Ny = p.Ny ∧ p'.par = p.par ∧ p'.co = p.co := by
  unfold Pml.updateH at h
  obtain ⟨s, h1, h⟩ := (Except.bind_ok ..).mp h
  obtain ⟨r, h2, h⟩ := (Except.bind_ok ..).mp h
  cases h
  exact ⟨sticks_loop Psi2.F (fun _ _ _ h => sticks_loop Psi2.F (fun _ _ _ h => pmlHy_body h) h) h1, rfl, rfl, rfl, rfl⟩

theorem optH_sticks {o : Option (Tfsf Xr)} {E E' : HPair Xr} (h : optUpdateH o E = .ok E') : Sticks E.Hx E'.Hx := by
  cases o with
  | none => cases h; exact .refl _
  | some w =>
    obtain ⟨X, h1, h⟩ := (Except.bind_ok ..).mp (show w.updateH E = .ok E' from h)
    obtain ⟨Y, h2, h⟩ := (Except.bind_ok ..).mp h
    cases h
    refine sticks_loop id (fun i s s' h => ?_) h1
    obtain ⟨_, -, h⟩ := (Except.bind_ok ..).mp h
    obtain ⟨F, h1, h⟩ := (Except.bind_ok ..).mp h
    obtain ⟨_, -, h⟩ := (Except.bind_ok ..).mp h
    exact (sticks_addTo h1).trans (sticks_addTo h)

/-! ## Sources -/

theorem addAt_sticks {f f' : Flds Xr} {C : Fields} {i j : ℤ} {v : Xr} (h : f.addAt C i j v = .ok f') :
    Sticks f.Ez f'.Ez ∧ Sticks f.Hx f'.Hx := by
  unfold Flds.addAt at h
  cases C <;> first | (cases h; done) | skip
  all_goals
    obtain ⟨x, h1, h⟩ := (Except.bind_ok ..).mp h
    obtain ⟨F, h2, h⟩ := (Except.bind_ok ..).mp h
    cases h
    have := sticks_wr h2 fun e => by rw [rd_inv h1, e, nan_add]
  · exact ⟨this, .refl _⟩
  · exact ⟨.refl _, this⟩
  · exact ⟨.refl _, .refl _⟩

theorem lineLoop_sticks {C : Fields} {b tg : V2 ℤ} {amp : Xr} : ∀ (n : ℕ) (p : V2 ℤ) (f f' : Flds Xr),
    lineLoop C b tg amp n p f = .ok f' → Sticks f.Ez f'.Ez ∧ Sticks f.Hx f'.Hx
  | 0, _, _, _, h => by cases h
  | n + 1, p, f, f', h => by
    unfold lineLoop at h
    split_ifs at h
    · cases h; exact ⟨.refl _, .refl _⟩
    · obtain ⟨f1, h1, h⟩ := (Except.bind_ok ..).mp h
      have a := addAt_sticks h1
      have b := lineLoop_sticks n _ _ _ h
      exact ⟨a.1.trans b.1, a.2.trans b.2⟩

theorem pulse_sticks {g : Grid Xr} {t : Xr} {s : Source Xr} {f f' : Flds Xr} (h : (s.pulse g t f).2 = .ok f') :
    Sticks f.Ez f'.Ez ∧ Sticks f.Hx f'.Hx := by
  unfold Source.pulse at h
  cases hk : s.kind with
  | point C p =>
    rw [hk] at h
    dsimp only at h
    cases hr : s.tp.response t with
    | error e => rw [hr] at h; cases h
    | ok r => rw [hr] at h; exact addAt_sticks h
  | line C surf =>
    rw [hk] at h
    dsimp only at h
    cases hg : g.toGridS surf with
    | error e => rw [hg] at h; cases h
    | ok is =>
      rw [hg] at h
      dsimp only at h
      cases hr : s.tp.response t with
      | error e => rw [hr] at h; cases h
      | ok r => rw [hr] at h; exact lineLoop_sticks _ _ _ _ h

theorem pulseAll_sticks {g : Grid Xr} {t : Xr} : ∀ (l l' : List (Source Xr)) (f f' : Flds Xr), pulseAll g t l f = .ok (l', f') →
    Sticks f.Ez f'.Ez ∧ Sticks f.Hx f'.Hx
  | [], l', f, f', h => by cases h; exact ⟨.refl _, .refl _⟩
  | s :: l, l', f, f', h => by
    unfold pulseAll at h
    obtain ⟨f1, h1, h⟩ := (Except.bind_ok ..).mp h
    obtain ⟨⟨m, f2⟩, h2, h⟩ := (Except.bind_ok ..).mp h
    cases h
    have a := pulse_sticks h1
    have b := pulseAll_sticks _ _ _ _ h2
    exact ⟨a.1.trans b.1, a.2.trans b.2⟩

/-! ## The program -/

/-- A layer that spoils the row next to the edge. -/
structure Bad (c : Core Xr) : Prop where
  Nx : c.pml.Nx = c.g.Nx
  Ny : c.pml.Ny = c.g.Ny
  T : 1 ≤ c.pml.par.T
  co : c.pml.co.be_y.val 1 = nan

/-- The rows up to `n` are NaN. -/
def Rows (n : ℕ) (c : Core Xr) : Prop := ∀ i j, 1 ≤ i → i < c.g.Nx - 1 → 1 ≤ j → j < c.g.Ny - 1 → j ≤ n → c.f.Ez.val i j = nan ∧ c.f.Hx.val i j = nan

theorem update_nan {c c' : Core Xr} {l l' : List (Source Xr)} (h : c.update l = .ok (c', l')) (hb : Bad c) {n : ℕ} (hr : Rows n c) :
    Bad c' ∧ Rows (n + 1) c' ∧ c'.g = c.g := by
  unfold Core.update at h
  obtain ⟨c1, h1, h⟩ := (Except.bind_ok ..).mp h
  obtain ⟨⟨m, f⟩, h2, h⟩ := (Except.bind_ok ..).mp h
  obtain ⟨c2, h3, h⟩ := (Except.bind_ok ..).mp h
  cases h
  unfold Core.stageE at h1
  obtain ⟨E0, k0, h1⟩ := (Except.bind_ok ..).mp h1
  obtain ⟨⟨p1, E1⟩, k1, h1⟩ := (Except.bind_ok ..).mp h1
  obtain ⟨⟨ld, E2⟩, k2, h1⟩ := (Except.bind_ok ..).mp h1
  obtain ⟨⟨lr, E3⟩, k3, h1⟩ := (Except.bind_ok ..).mp h1
  obtain ⟨⟨ll, E4⟩, k4, h1⟩ := (Except.bind_ok ..).mp h1
  obtain ⟨E5, k5, h1⟩ := (Except.bind_ok ..).mp h1
  cases h1
  obtain ⟨q1, q2, q3, q4, q5, q6⟩ := updateE_nan k1
  have r2 := mapJ_sticks (fun _ _ _ _ => debyeJ_sticks) _ _ _ _ k2
  have r3 := mapJ_sticks (fun _ _ _ _ => drudeJ_sticks) _ _ _ _ k3
  have r4 := mapJ_sticks (fun _ _ _ _ => lorentzJ_sticks) _ _ _ _ k4
  have r5 := optD_sticks k5
  have r15 : Sticks E1 E5 := ((r2.trans r3).trans r4).trans r5
  obtain ⟨s1, s2⟩ := pulseAll_sticks _ _ _ _ h2
  unfold Core.stageH at h3
  obtain ⟨tf, -, h3⟩ := (Except.bind_ok ..).mp h3
  obtain ⟨H, m1, h3⟩ := (Except.bind_ok ..).mp h3
  obtain ⟨⟨p2, X, Y⟩, m2, h3⟩ := (Except.bind_ok ..).mp h3
  obtain ⟨H2, m3, h3⟩ := (Except.bind_ok ..).mp h3
  cases h3
  obtain ⟨t1, t2, t3, t4, t5⟩ := updateH_nan m2
  refine ⟨⟨t2.trans (q2.trans hb.Nx), t3.trans (q3.trans hb.Ny), ?_, ?_⟩, ?_, rfl⟩
  · show 1 ≤ p2.par.T
    rw [t4, q4]; exact hb.T
  · show p2.co.be_y.val 1 = nan
    rw [t5, q5]; exact hb.co
  intro i j a1 a2 a3 a4 a5
  have hE : f.Ez.val i j = nan := by
    refine s1 i j (r15 i j ?_)
    rcases Nat.eq_zero_or_pos n with rfl | hn
    · obtain rfl : j = 1 := by push_cast at a5; omega
      refine q6 hb.T hb.co i a1 ?_
      rw [hb.Nx]; exact a2
    · refine q1 i j ?_
      rcases eq_or_lt_of_le a3 with rfl | hj
      · exact ezLoop_sticks k0 i 1 (hr i 1 a1 a2 (le_refl _) a4 (by exact_mod_cast hn)).1
      · exact ezLoop_spread k0 a1 a2 a3 a4 (hr i (j - 1) a1 a2 (by omega) (lt_trans (by omega) a4) (by push_cast at a5; omega)).2
  exact ⟨hE, optH_sticks m3 i j (t1 i j (hLoop_spread m1 a1 a2 a3 a4 hE))⟩

theorem run_nan : ∀ (n k : ℕ) {c c' : Core Xr} {l l' : List (Source Xr)}, c.run n l = .ok (c', l') → Bad c → Rows k c →
    Rows (k + n) c' ∧ c'.g = c.g
  | 0, k, c, c', l, l', h, hb, hr => by cases h; exact ⟨hr, rfl⟩
  | n + 1, k, c, c', l, l', h, hb, hr => by
    unfold Core.run at h
    obtain ⟨⟨c1, l1⟩, h1, h⟩ := (Except.bind_ok ..).mp h
    obtain ⟨b1, r1, g1⟩ := update_nan h1 hb hr
    obtain ⟨r2, g2⟩ := run_nan n (k + 1) h b1 r1
    exact ⟨by rw [show k + (n + 1) = k + 1 + n by omega]; exact r2, g2.trans g1⟩

theorem bF_nan {p : PmlPar Xr} (hT : p.T = 1) (hm : p.m = 3) : p.bF (ofInt 1) = nan := by
  have e : (ofInt p.T - ofInt 1 : Xr) / ofInt (p.T - 1) = nan := by
    rw [hT, Num.ofInt_fin, Num.ofInt_fin, Num.sub_fin]
    show Xr.div (fin _) (fin _) = nan
    simp [Xr.div, infSign]
  unfold PmlPar.bF PmlPar.sigF
  rw [e, hm, npow_nan]
  simp

theorem make_bad {g : Grid Xr} (hT : g.T = 1) {c : Core Xr} (h : Core.make g = .ok c) : Bad c ∧ c.g = g := by
  unfold Core.make at h
  obtain ⟨f, -, h⟩ := (Except.bind_ok ..).mp h
  obtain ⟨p, h1, h⟩ := (Except.bind_ok ..).mp h
  obtain ⟨sc, -, h⟩ := (Except.bind_ok ..).mp h
  cases h
  unfold Pml.make Pml.makeWith at h1
  obtain ⟨co, h2, h1⟩ := (Except.bind_ok ..).mp h1
  cases h1
  have hb := bF_nan (p := PmlPar.default g) hT rfl
  have key : ∀ (i : ℤ) (s s' : PmlCoef Xr), (do
      let be_x ← s.be_x.wr i ((PmlPar.default g).bF (ofInt i))
      let ce_x ← s.ce_x.wr i ((PmlPar.default g).cF (ofInt i))
      let bh_x ← s.bh_x.wr i ((PmlPar.default g).bF (ofInt i + half))
      let ch_x ← s.ch_x.wr i ((PmlPar.default g).cF (ofInt i + half))
      let be_y ← s.be_y.wr i ((PmlPar.default g).bF (ofInt i))
      let ce_y ← s.ce_y.wr i ((PmlPar.default g).cF (ofInt i))
      let bh_y ← s.bh_y.wr i ((PmlPar.default g).bF (ofInt i + half))
      let ch_y ← s.ch_y.wr i ((PmlPar.default g).cF (ofInt i + half))
      pure (⟨be_x, ce_x, bh_x, ch_x, be_y, ce_y, bh_y, ch_y⟩ : PmlCoef Xr) : M _) = .ok s' →
      s'.be_y.val 1 = if 1 = i then (PmlPar.default g).bF (ofInt i) else s.be_y.val 1 := by
    intro i s s' h
    obtain ⟨_, -, h⟩ := (Except.bind_ok ..).mp h
    obtain ⟨_, -, h⟩ := (Except.bind_ok ..).mp h
    obtain ⟨_, -, h⟩ := (Except.bind_ok ..).mp h
    obtain ⟨_, -, h⟩ := (Except.bind_ok ..).mp h
    obtain ⟨b, hb, h⟩ := (Except.bind_ok ..).mp h
    obtain ⟨_, -, h⟩ := (Except.bind_ok ..).mp h
    obtain ⟨_, -, h⟩ := (Except.bind_ok ..).mp h
    obtain ⟨_, -, h⟩ := (Except.bind_ok ..).mp h
    cases h
    exact awr_inv hb 1
  refine ⟨⟨rfl, rfl, by show 1 ≤ g.T; omega, ?_⟩, rfl⟩
  refine forRange_hit (fun s : PmlCoef Xr => s.be_y.val 1 = nan) 1 (by omega) (by show 1 < g.T + 1; omega) ?_ ?_ _ _ h2
  · intro s s' h
    rw [key 1 s s' h, if_pos rfl, hb]
  · intro i _ _ s s' h e
    rw [key i s s' h]
    split_ifs with hi
    · rw [← hi]; exact hb
    · exact e

theorem insert_bad {c c' : Core Xr} {o : Object Xr} (h : c.insertObject o = .ok c') : c'.pml = c.pml ∧ c'.g = c.g := by
  unfold Core.insertObject at h
  obtain ⟨f, -, h⟩ := (Except.bind_ok ..).mp h
  cases hk : o.mat.kind with
  | simple m => rw [hk] at h; cases h; exact ⟨rfl, rfl⟩
  | debye m => rw [hk] at h; obtain ⟨_, -, h⟩ := (Except.bind_ok ..).mp h; cases h; exact ⟨rfl, rfl⟩
  | drude m => rw [hk] at h; obtain ⟨_, -, h⟩ := (Except.bind_ok ..).mp h; cases h; exact ⟨rfl, rfl⟩
  | lorentz m => rw [hk] at h; obtain ⟨_, -, h⟩ := (Except.bind_ok ..).mp h; cases h; exact ⟨rfl, rfl⟩

theorem insertAll_bad : ∀ (l : List (Object Xr)) {c c' : Core Xr}, forList l c (fun o c => c.insertObject o) = .ok c' →
    c'.pml = c.pml ∧ c'.g = c.g
  | [], c, c', h => by cases h; exact ⟨rfl, rfl⟩
  | o :: l, c, c', h => by
    rw [forList_cons] at h
    obtain ⟨c1, h1, h⟩ := (Except.bind_ok ..).mp h
    have a := insert_bad h1
    have b := insertAll_bad l h
    exact ⟨b.1.trans a.1, b.2.trans a.2⟩

/-- A layer of no cells: whatever the program does, row after row becomes NaN. -/
theorem program_nan {g : Grid Xr} (hT : g.T = 1) {objs : List (Object Xr)} {wave : Option (Vol Xr × TimeProfile Xr)}
    {srcs : List (Source Xr)} {n : ℕ} {c : Core Xr} (h : program g objs wave srcs n = .ok c) {i j : ℤ} (h1 : 1 ≤ i) (h2 : i < g.Nx - 1)
    (h3 : 1 ≤ j) (h4 : j < g.Ny - 1) (h5 : j ≤ n) : c.f.Ez.val i j = nan ∧ c.f.Hx.val i j = nan := by
  unfold program at h
  obtain ⟨c0, k0, h⟩ := (Except.bind_ok ..).mp h
  obtain ⟨c1, k1, h⟩ := (Except.bind_ok ..).mp h
  obtain ⟨b0, g0⟩ := make_bad hT k0
  obtain ⟨p1, g1⟩ := insertAll_bad _ k1
  have rows : ∀ c : Core Xr, Rows 0 c := fun c i j _ _ h _ h' => by push_cast at h'; omega
  have fin : ∀ c2 : Core Xr, c2.pml = c1.pml → c2.g = c1.g → ∀ r, c2.run n srcs = .ok r → c = r.1 → c.f.Ez.val i j = nan ∧ c.f.Hx.val i j = nan := by
    intro c2 e1 e2 r hr e
    subst e
    have b2 : Bad c2 := ⟨by rw [e1, e2, p1, g1]; exact b0.Nx, by rw [e1, e2, p1, g1]; exact b0.Ny, by rw [e1, p1]; exact b0.T,
      by rw [e1, p1]; exact b0.co⟩
    obtain ⟨r1, r2⟩ := run_nan n 0 hr b2 (rows _)
    have eg : r.1.g = g := by rw [r2, e2, g1, g0]
    refine r1 i j h1 (by rw [eg]; exact h2) h3 (by rw [eg]; exact h4) (by push_cast; omega)
  cases wave with
  | none => obtain ⟨r, hr, h⟩ := (Except.bind_ok ..).mp h; cases h; exact fin c1 rfl rfl r hr rfl
  | some w => obtain ⟨r, hr, h⟩ := (Except.bind_ok ..).mp h; cases h; exact fin (c1.setTfsf w.1 w.2) rfl rfl r hr rfl

end Nan

end Qbox
