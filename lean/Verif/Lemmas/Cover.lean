import Verif.Spec.CoverSpec
import Verif.Lemmas.NodeStep
import Verif.Lemmas.Reach

/-!
# Objects hidden by others
-/

namespace Qbox
open Scalar Spec Props

set_option linter.unusedSectionVars false

section
variable {K : Type} [Scalar K]

/-- Where two sets of coefficients agree, they agree after painting, and they agree inside the painted object. -/
def SameAt (f f' : Flds K) (x y : ℤ) : Prop :=
  f.Ca.val x y = f'.Ca.val x y ∧ f.Cb.val x y = f'.Cb.val x y ∧ f.Da.val x y = f'.Da.val x y ∧ f.Db.val x y = f'.Db.val x y

theorem sameAt_paint {f f' : Flds K} {k : MatKind K} {dt : K} {q : ℤ → ℤ → Bool} {D : Finset (ℤ × ℤ)} {x y : ℤ}
    (h : SameAt f f' x y ∨ ((x, y) ∈ D ∧ q x y = true)) : SameAt (f.paint k dt q D) (f'.paint k dt q D) x y := by
  by_cases hx : (x, y) ∈ D ∧ q x y = true
  · simp [SameAt, Flds.paint, hx]
  · rcases h with h | h
    · simpa [SameAt, Flds.paint, hx] using h
    · exact absurd h hx

theorem sameAt_paintAll {g : Grid K} {x y : ℤ} : ∀ (l : List (Object K)) (f f' : Flds K),
    (SameAt f f' x y ∨ ∃ o ∈ l, (x, y) ∈ scan g o ∧ o.inside (g.toReal ⟨x, y⟩) = true) → SameAt (paintAll g l f) (paintAll g l f') x y
  | [], f, f', h => by
    have : SameAt f f' x y := by simpa using h
    exact this
  | o :: l, f, f', h => by
    refine sameAt_paintAll l _ _ ?_
    rcases h with h | ⟨o', h1, h2⟩
    · exact Or.inl (sameAt_paint (Or.inl h))
    · rcases List.mem_cons.mp h1 with rfl | h1
      · exact Or.inl (sameAt_paint (Or.inr h2))
      · exact Or.inr ⟨o', h1, h2⟩

theorem paintAll_rest (g : Grid K) : ∀ (l : List (Object K)) (f : Flds K), (paintAll g l f).Ez = f.Ez ∧ (paintAll g l f).Hx = f.Hx ∧
    (paintAll g l f).Hy = f.Hy ∧ (paintAll g l f).Ca.nx = f.Ca.nx ∧ (paintAll g l f).Ca.ny = f.Ca.ny ∧
    (paintAll g l f).Cb.nx = f.Cb.nx ∧ (paintAll g l f).Cb.ny = f.Cb.ny ∧
    (paintAll g l f).Da.nx = f.Da.nx ∧ (paintAll g l f).Da.ny = f.Da.ny ∧
    (paintAll g l f).Db.nx = f.Db.nx ∧ (paintAll g l f).Db.ny = f.Db.ny
  | [], _ => ⟨rfl, rfl, rfl, rfl, rfl, rfl, rfl, rfl, rfl, rfl, rfl⟩
  | _ :: l, _ => paintAll_rest g l _

/-- Painting a hidden object first changes nothing. -/
theorem paintAll_hidden {g : Grid K} {o : Object K} {l : List (Object K)} (hs : o.Safe g)
    (hc : ∀ o ∈ l, o.Covered g) (hh : Hides g l o) (f : Flds K) : paintAll g (o :: l) f = paintAll g l f := by
  have key : ∀ x y, SameAt (paintAll g (o :: l) f) (paintAll g l f) x y := by
    intro x y
    show SameAt (paintAll g l (f.paint o.mat.kind g.dt (fun x y => o.inside (g.toReal ⟨x, y⟩)) (scan g o))) (paintAll g l f) x y
    refine sameAt_paintAll l _ _ ?_
    by_cases hx : (x, y) ∈ scan g o ∧ o.inside (g.toReal ⟨x, y⟩) = true
    · obtain ⟨h1, h2⟩ := hx
      have h1' := h1
      unfold scan at h1
      rw [mem_rect] at h1
      obtain ⟨b1, b2, b3, b4⟩ := hs x y h1.1.1 (by have := h1.1.2; omega) h1.2.1 (by have := h1.2.2; omega) h2
      obtain ⟨o', m1, m2⟩ := hh x y b1 b2 b3 b4 h2
      exact Or.inr ⟨o', m1, hc o' m1 x y b1 b2 b3 b4 m2, m2⟩
    · left
      simp [SameAt, Flds.paint, hx]
  obtain ⟨a1, a2, a3, a4, a5, a6, a7, a8, a9, a10, a11⟩ := paintAll_rest g (o :: l) f
  obtain ⟨b1, b2, b3, b4, b5, b6, b7, b8, b9, b10, b11⟩ := paintAll_rest g l f
  have e : ∀ u v : Flds K, u.Ez = v.Ez → u.Hx = v.Hx → u.Hy = v.Hy → u.Ca = v.Ca → u.Cb = v.Cb → u.Da = v.Da → u.Db = v.Db → u = v := by
    intro u v; cases u; cases v; simp_all
  refine e _ _ (a1.trans b1.symm) (a2.trans b2.symm) (a3.trans b3.symm) ?_ ?_ ?_ ?_
  · exact Tensor.ext' (a4.trans b4.symm) (a5.trans b5.symm) fun x y => (key x y).1
  · exact Tensor.ext' (a6.trans b6.symm) (a7.trans b7.symm) fun x y => (key x y).2.1
  · exact Tensor.ext' (a8.trans b8.symm) (a9.trans b9.symm) fun x y => (key x y).2.2.1
  · exact Tensor.ext' (a10.trans b10.symm) (a11.trans b11.symm) fun x y => (key x y).2.2.2

/-- Adding an object to a state with other coefficients. -/
theorem insertObject_other {c c' : Core K} {o : Object K} {f : Flds K} (hc : c.f.Dims c.g.Nx c.g.Ny) (hf : f.Dims c.g.Nx c.g.Ny)
    (hE : f.Ez = c.f.Ez) (ho : o.Safe c.g) (h : c.insertObject o = .ok c') : ({ c with f := f }).insertObject o = .ok { c' with
      f := f.paint o.mat.kind c.g.dt (fun x y => o.inside (c.g.toReal ⟨x, y⟩)) (scan c.g o) } := by
  unfold Core.insertObject at h ⊢
  rw [paintObject_closed hc ho] at h
  have := paintObject_closed (g := c.g) (o := o) hf ho
  simp only [this, Except.ok_bind] at h ⊢
  cases hk : o.mat.kind with
  | simple m =>
    simp only [hk] at h ⊢
    cases h; rfl
  | debye m =>
    simp only [hk, Except.bind_ok] at h ⊢
    obtain ⟨l, h1, h2⟩ := h
    cases h2
    refine ⟨l, h1, ?_⟩
    simp [Flds.paint, hE]
  | drude m =>
    simp only [hk, Except.bind_ok] at h ⊢
    obtain ⟨l, h1, h2⟩ := h
    cases h2
    refine ⟨l, h1, ?_⟩
    simp [Flds.paint, hE]
  | lorentz m =>
    simp only [hk, Except.bind_ok] at h ⊢
    obtain ⟨l, h1, h2⟩ := h
    cases h2
    refine ⟨l, h1, ?_⟩
    simp [Flds.paint, hE]

theorem insertAll_other : ∀ (l : List (Object K)) {c c' : Core K} {f : Flds K}, c.f.Dims c.g.Nx c.g.Ny → f.Dims c.g.Nx c.g.Ny →
    f.Ez = c.f.Ez → (∀ o ∈ l, o.Safe c.g) → forList l c (fun o c => c.insertObject o) = .ok c' →
    forList l { c with f := f } (fun o c => c.insertObject o) = .ok { c' with f := paintAll c.g l f }
  | [], c, c', f, _, _, _, _, h => by cases h; rfl
  | o :: l, c, c', f, hc, hf, hE, hs, h => by
    rw [forList_cons] at h ⊢
    simp only [Except.bind_ok] at h
    obtain ⟨c1, h1, h2⟩ := h
    rw [insertObject_other hc hf hE (hs o (by simp)) h1, Except.ok_bind]
    obtain ⟨e1, e2⟩ := insertObject_f hc (hs o (by simp)) h1
    have := insertAll_other l (c := c1) (f := f.paint o.mat.kind c.g.dt (fun x y => o.inside (c.g.toReal ⟨x, y⟩)) (scan c.g o))
      (by rw [e1, e2]; exact Flds.paint_dims hc _ _ _ _) (by rw [e2]; exact Flds.paint_dims hf _ _ _ _)
      (by rw [e1]; exact hE) (by rw [e2]; exact fun o' ho => hs o' (by simp [ho])) h2
    rw [show c1.g = c.g from e2] at this
    rw [show ({ c1 with f := f.paint o.mat.kind c.g.dt (fun x y => o.inside (c.g.toReal ⟨x, y⟩)) (scan c.g o) } : Core K)
      = { c1 with g := c.g, f := f.paint o.mat.kind c.g.dt (fun x y => o.inside (c.g.toReal ⟨x, y⟩)) (scan c.g o) } from by rw [e2]]
    exact this

/-- Objects without memory only change coefficients. -/
theorem insertAll_plain : ∀ (l : List (Object K)) {c : Core K}, c.f.Dims c.g.Nx c.g.Ny → (∀ o ∈ l, o.Safe c.g) → (∀ o ∈ l, Plain o) →
    forList l c (fun o c => c.insertObject o) = .ok { c with f := paintAll c.g l c.f }
  | [], c, _, _, _ => rfl
  | o :: l, c, hc, hs, hp => by
    rw [forList_cons]
    obtain ⟨m, hm⟩ := hp o (by simp)
    have h1 : c.insertObject o = .ok { c with f := c.f.paint o.mat.kind c.g.dt (fun x y => o.inside (c.g.toReal ⟨x, y⟩)) (scan c.g o) } := by
      unfold Core.insertObject
      rw [paintObject_closed hc (hs o (by simp)), Except.ok_bind, hm]; rfl
    rw [h1, Except.ok_bind]
    exact insertAll_plain l (c := { c with f := c.f.paint o.mat.kind c.g.dt (fun x y => o.inside (c.g.toReal ⟨x, y⟩)) (scan c.g o) })
      (Flds.paint_dims hc _ _ _ _) (fun o' ho => hs o' (by simp [ho])) (fun o' ho => hp o' (by simp [ho]))

end

/-- The step at a node where one Debye polarization acts, whatever the coefficients are. -/
theorem Core.Step.overDebye {c c' : Core ℝ} {srcs srcs' E2 E3 E4 f} (hc : c.Std) (h : c.Step srcs c' srcs' E2 E3 E4 f)
    {i j : ℤ} (hb : Beyond c.g i j) (hu : Undriven c srcs i j) {n : String} {P : DebyePol ℝ}
    (hd : c.debye = [(n, P)]) (hr : c.drude = []) (hl : c.lorentz = []) :
    ∃ P', c'.debye = [(n, P')] ∧ c'.drude = [] ∧ c'.lorentz = [] ∧ P'.mat = P.mat ∧
      c'.f.Ez.val i j = c.f.Ca.val i j * c.f.Ez.val i j + c.f.Cb.val i j * curlH c.f c.g.dx i j - P.mat.Cb c.g.dt / 2 *
        ∑ M ∈ Finset.range P.mat.poles.length, (1 + (Arr.ofList (P.mat.poles.map (·.kappa c.g.dt))).val M) * P.J.val i j M ∧
      ∀ N : ℕ, N < P.mat.poles.length → P'.J.val i j N =
        (Arr.ofList (P.mat.poles.map (·.kappa c.g.dt))).val N * P.J.val i j N + P.beta.val i j N / c.g.dt *
          ((c.f.Ca.val i j * c.f.Ez.val i j + c.f.Cb.val i j * curlH c.f c.g.dx i j - P.mat.Cb c.g.dt / 2 *
        ∑ M ∈ Finset.range (N + 1), (1 + (Arr.ofList (P.mat.poles.map (·.kappa c.g.dt))).val M) * P.J.val i j M)
          - c.f.Ez.val i j) := by
  obtain ⟨i0, i1, j0, j1⟩ := Beyond_mem hc.thick hb
  have hd' := h.hd
  rw [hd] at hd'
  have wd := hc.wf.debye
  rw [hd] at wd
  obtain ⟨P2, E22, u, w2, d2, m2, n2, b2, v2⟩ := DebyePol.updateJ_node (wd (n, P) (by simp)) hc.wf.f.Ez (E1_dim hc)
  unfold mapUpdateJ mapUpdateJ at hd'
  rw [u] at hd'
  simp only [Except.ok_bind, Except.pure_eq] at hd'
  have k4 : c'.debye = [(n, P2)] := (congrArg Prod.fst (Except.ok.inj hd')).symm
  have hE2 : E2 = E22 := (congrArg Prod.snd (Except.ok.inj hd')).symm
  have hr' := h.hr
  rw [hr] at hr'
  have hE3 : E3 = E2 := (congrArg Prod.snd (Except.ok.inj hr')).symm
  have hrr : c'.drude = [] := (congrArg Prod.fst (Except.ok.inj hr')).symm
  have hl' := h.hl
  rw [hl] at hl'
  have hE4 : E4 = E3 := (congrArg Prod.snd (Except.ok.inj hl')).symm
  have hll : c'.lorentz = [] := (congrArg Prod.fst (Except.ok.inj hl')).symm
  have hnp : P.np.toNat = P.mat.poles.length := by
    rw [(wd (n, P) (by simp)).np]; simp
  obtain ⟨v5, v6⟩ := v2 i j i0 i1 j0 j1
  rw [hnp] at v5 v6
  rw [Core.E1_node hc hb] at v5 v6
  exact ⟨P2, k4, hrr, hll, m2, by rw [h.Ez_node hu, hE4, hE3, hE2, v5], v6⟩

/-- The step at a node where one Drude polarization acts, whatever the coefficients are. -/
theorem Core.Step.overDrude {c c' : Core ℝ} {srcs srcs' E2 E3 E4 f} (hc : c.Std) (h : c.Step srcs c' srcs' E2 E3 E4 f)
    {i j : ℤ} (hb : Beyond c.g i j) (hu : Undriven c srcs i j) {n : String} {P : DrudePol ℝ}
    (hr : c.drude = [(n, P)]) (hd : c.debye = []) (hl : c.lorentz = []) :
    ∃ P', c'.drude = [(n, P')] ∧ c'.debye = [] ∧ c'.lorentz = [] ∧ P'.mat = P.mat ∧
      c'.f.Ez.val i j = c.f.Ca.val i j * c.f.Ez.val i j + c.f.Cb.val i j * curlH c.f c.g.dx i j - P.mat.Cb c.g.dt / 2 *
        ∑ M ∈ Finset.range P.mat.poles.length, (1 + (Arr.ofList (P.mat.poles.map (·.kappa c.g.dt))).val M) * P.J.val i j M ∧
      ∀ N : ℕ, N < P.mat.poles.length → P'.J.val i j N =
        (Arr.ofList (P.mat.poles.map (·.kappa c.g.dt))).val N * P.J.val i j N + P.beta.val i j N *
          ((c.f.Ca.val i j * c.f.Ez.val i j + c.f.Cb.val i j * curlH c.f c.g.dx i j - P.mat.Cb c.g.dt / 2 *
        ∑ M ∈ Finset.range (N + 1), (1 + (Arr.ofList (P.mat.poles.map (·.kappa c.g.dt))).val M) * P.J.val i j M)
          + c.f.Ez.val i j) := by
  obtain ⟨i0, i1, j0, j1⟩ := Beyond_mem hc.thick hb
  have hd' := h.hd
  rw [hd] at hd'
  have hE2 : E2 = c.E1 := (congrArg Prod.snd (Except.ok.inj hd')).symm
  have hdd : c'.debye = [] := (congrArg Prod.fst (Except.ok.inj hd')).symm
  have hr' := h.hr
  rw [hr] at hr'
  have wd := hc.wf.drude
  rw [hr] at wd
  obtain ⟨P2, E22, u, w2, d2, m2, n2, b2, v2⟩ := DrudePol.updateJ_node (wd (n, P) (by simp)) hc.wf.f.Ez (E1_dim hc)
  unfold mapUpdateJ mapUpdateJ at hr'
  rw [hE2, u] at hr'
  simp only [Except.ok_bind, Except.pure_eq] at hr'
  have k4 : c'.drude = [(n, P2)] := (congrArg Prod.fst (Except.ok.inj hr')).symm
  have hE3 : E3 = E22 := (congrArg Prod.snd (Except.ok.inj hr')).symm
  have hl' := h.hl
  rw [hl] at hl'
  have hE4 : E4 = E3 := (congrArg Prod.snd (Except.ok.inj hl')).symm
  have hll : c'.lorentz = [] := (congrArg Prod.fst (Except.ok.inj hl')).symm
  have hnp : P.np.toNat = P.mat.poles.length := by
    rw [(wd (n, P) (by simp)).np]; simp
  obtain ⟨v5, v6⟩ := v2 i j i0 i1 j0 j1
  rw [hnp] at v5 v6
  rw [Core.E1_node hc hb] at v5 v6
  exact ⟨P2, k4, hdd, hll, m2, by rw [h.Ez_node hu, hE4, hE3, v5], v6⟩

/-- The step at a node without any polarization, whatever the coefficients are. -/
theorem Core.Step.overNone {c c' : Core ℝ} {srcs srcs' E2 E3 E4 f} (hc : c.Std) (h : c.Step srcs c' srcs' E2 E3 E4 f)
    {i j : ℤ} (hb : Beyond c.g i j) (hu : Undriven c srcs i j) (hr : c.drude = []) (hd : c.debye = []) (hl : c.lorentz = []) :
    c'.debye = [] ∧ c'.drude = [] ∧ c'.lorentz = [] ∧
      c'.f.Ez.val i j = c.f.Ca.val i j * c.f.Ez.val i j + c.f.Cb.val i j * curlH c.f c.g.dx i j := by
  have hd' := h.hd
  rw [hd] at hd'
  have hE2 : E2 = c.E1 := (congrArg Prod.snd (Except.ok.inj hd')).symm
  have hdd : c'.debye = [] := (congrArg Prod.fst (Except.ok.inj hd')).symm
  have hr' := h.hr
  rw [hr] at hr'
  have hE3 : E3 = E2 := (congrArg Prod.snd (Except.ok.inj hr')).symm
  have hrr : c'.drude = [] := (congrArg Prod.fst (Except.ok.inj hr')).symm
  have hl' := h.hl
  rw [hl] at hl'
  have hE4 : E4 = E3 := (congrArg Prod.snd (Except.ok.inj hl')).symm
  have hll : c'.lorentz = [] := (congrArg Prod.fst (Except.ok.inj hl')).symm
  exact ⟨hdd, hrr, hll, by rw [h.Ez_node hu, hE4, hE3, hE2, Core.E1_node hc hb]⟩

end Qbox
