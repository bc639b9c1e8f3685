import Verif.Spec.YeeSpec
import Verif.Lemmas.PmlClosed
import Verif.Lemmas.Narrow

/-!
# C13, C14 (stepping)
-/

namespace Qbox.Props
open Qbox Scalar Spec

set_option linter.unusedSectionVars false

variable {K : Type} [Scalar K]

/-! ## C13: the loops compute the Yee equations simultaneously, in any order -/

theorem ampere_of_closed (Nx Ny : ℤ) (f : Flds K) (sc : Scaling K) :
    AmpereStep Nx Ny f sc (f.Ez.upd (rect 1 (Nx - 1) 1 (Ny - 1)) (ezVal f sc)) := by
  refine ⟨rfl, rfl, ?_, ?_⟩
  · rintro i j ⟨h1, h2, h3, h4⟩
    rw [Tensor.upd_val, if_pos (by rw [mem_rect]; exact ⟨⟨by simp; omega, h2⟩, by simp; omega, h4⟩)]
    rfl
  · intro i j h
    rw [Tensor.upd_val, if_neg]
    rw [mem_rect]
    rintro ⟨⟨h1, h2⟩, h3, h4⟩
    simp only at h1 h2 h3 h4
    exact h ⟨by omega, h2, by omega, h4⟩

theorem forList_perm_closed {σ : Type} (st : Finset (ℤ × ℤ) → σ) (a b c d : ℤ) (body : ℤ → ℤ → σ → M σ)
    (hstep : ∀ i j, (i, j) ∈ rect a b c d → ∀ D : Finset (ℤ × ℤ), D ⊆ rect a b c d →
      (i, j) ∉ D → body i j (st D) = .ok (st (insert (i, j) D)))
    (l : List (ℤ × ℤ)) (hl : l.Perm (rectList a b c d)) :
    forList l (st ∅) (fun p => body p.1 p.2) = .ok (st (rect a b c d)) := by
  have := forList_closed st l (fun p => body p.1 p.2) (rect a b c d)
    (fun i hi => by rw [mem_rect, ← mem_rectList]; exact hl.mem_iff.mp hi)
    (fun p hp D hD hn => hstep p.1 p.2 hp D hD hn)
    (hl.nodup_iff.mpr (nodup_rectList _ _ _ _)) ∅ (by simp) (by simp)
  rw [this]
  congr 2
  ext p
  simp [rect, hl.mem_iff]

/-- **C13** (electric loop). Whatever the order in which the iterations of the electric loop run, none faults and the
result is the field that satisfies the discrete Ampère law at every inner node, evaluated on the fields before the loop,
with the border unchanged; the program's own order is one of them. -/
theorem C13_electric_loop (Nx Ny : ℤ) (f : Flds K) (sc : Scaling K) (hf : f.Dims Nx Ny) (hs : sc.Dims Nx Ny)
    (order : List (ℤ × ℤ)) (ho : order.Perm (rectList 1 (Nx - 1) 1 (Ny - 1))) :
    ∃ E, AmpereStep Nx Ny f sc E ∧ ezLoop Nx Ny f sc = .ok E ∧
      forList order f.Ez (fun p => ezBody f.Hx f.Hy f.Ca f.Cb sc.kedx sc.kedy p.1 p.2) = .ok E := by
  refine ⟨_, ampere_of_closed Nx Ny f sc, ezLoop_closed Nx Ny f sc hf hs, ?_⟩
  have := forList_perm_closed (fun D => f.Ez.upd D (ezVal f sc)) 1 (Nx - 1) 1 (Ny - 1)
    (ezBody f.Hx f.Hy f.Ca f.Cb sc.kedx sc.kedy)
    (fun i j hr D _ hn => by
      obtain ⟨⟨h1, h2⟩, h3, h4⟩ := mem_rect.mp hr
      exact ezBody_closed Nx Ny f sc hf hs i j h1 h2 h3 h4 D hn) order ho
  simpa using this

/-- **C13** (magnetic loop). -/
theorem C13_magnetic_loop (Nx Ny : ℤ) (f : Flds K) (sc : Scaling K) (hf : f.Dims Nx Ny) (hs : sc.Dims Nx Ny)
    (order : List (ℤ × ℤ)) (ho : order.Perm (rectList 1 (Nx - 1) 1 (Ny - 1))) :
    ∃ H, FaradayStep Nx Ny f sc H ∧ hLoop Nx Ny f sc = .ok H ∧
      forList order ⟨f.Hx, f.Hy⟩ (fun p => hBody f.Ez f.Da f.Db sc.khdx sc.khdy p.1 p.2) = .ok H := by
  refine ⟨_, ?_, hLoop_closed Nx Ny f sc hf hs, ?_⟩
  · refine ⟨⟨rfl, rfl, rfl, rfl⟩, ?_, ?_⟩
    · rintro i j ⟨h1, h2, h3, h4⟩
      have hm : (i, j) ∈ rect 1 (Nx - 1) 1 (Ny - 1) := by
        rw [mem_rect]; exact ⟨⟨by simp; omega, h2⟩, by simp; omega, h4⟩
      simp only [Tensor.upd_val, if_pos hm]
      exact ⟨rfl, rfl⟩
    · intro i j h
      have hm : (i, j) ∉ rect 1 (Nx - 1) 1 (Ny - 1) := by
        rw [mem_rect]
        rintro ⟨⟨h1, h2⟩, h3, h4⟩
        simp only at h1 h2 h3 h4
        exact h ⟨by omega, h2, by omega, h4⟩
      simp [Tensor.upd_val, hm]
  · have := forList_perm_closed (fun D => HPair.mk (f.Hx.upd D (hxVal f sc)) (f.Hy.upd D (hyVal f sc)))
      1 (Nx - 1) 1 (Ny - 1) (hBody f.Ez f.Da f.Db sc.khdx sc.khdy)
      (fun i j hr D _ hn => by
        obtain ⟨⟨h1, h2⟩, h3, h4⟩ := mem_rect.mp hr
        exact hBody_closed Nx Ny f sc hf hs i j h1 h2 h3 h4 D hn) order ho
    simpa using this

/-- **C13** (absorbing layer). When the two strips of the layer do not overlap, each of the four loops of the absorbing
layer gives the same result in every order of its iterations. -/
theorem C13_layer_loops (p : Pml K) (Nx Ny T : ℤ) (hp : p.WF Nx Ny T) (hT : 1 ≤ T) (hx : 2 * T < Nx - 1)
    (hy : 2 * T < Ny - 1) (Hx Hy Ez Cb Db : Tensor K) (hHx : Hx.Dim Nx Ny) (hHy : Hy.Dim Nx Ny) (hEz : Ez.Dim Nx Ny)
    (hCb : Cb.Dim Nx Ny) (hDb : Db.Dim Nx Ny) (F : Tensor K) (hF : F.Dim Nx Ny) :
    (∀ order : List (ℤ × ℤ), order.Perm (rectList 1 (Nx - 1) 1 (T + 1)) →
      forList order ⟨p.psi.Ezy1, p.psi.Ezy2, F⟩ (fun q => pmlEyBody p.co.be_y p.co.ce_y p.par.dx (Ny - 1) Hx Cb q.1 q.2) =
      forRange 1 (Nx - 1) ⟨p.psi.Ezy1, p.psi.Ezy2, F⟩ (fun i s => forRange 1 (T + 1) s
        (pmlEyBody p.co.be_y p.co.ce_y p.par.dx (Ny - 1) Hx Cb i))) ∧
    (∀ order : List (ℤ × ℤ), order.Perm (rectList 1 (T + 1) 1 (Ny - 1)) →
      forList order ⟨p.psi.Ezx1, p.psi.Ezx2, F⟩ (fun q => pmlExBody p.co.be_x p.co.ce_x p.par.dx (Nx - 1) Hy Cb q.1 q.2) =
      forRange 1 (T + 1) ⟨p.psi.Ezx1, p.psi.Ezx2, F⟩ (fun i s => forRange 1 (Ny - 1) s
        (pmlExBody p.co.be_x p.co.ce_x p.par.dx (Nx - 1) Hy Cb i))) ∧
    (∀ order : List (ℤ × ℤ), order.Perm (rectList 1 (Nx - 1) 1 (T - 1 + 1)) →
      forList order ⟨p.psi.Hxy1, p.psi.Hxy2, F⟩ (fun q => pmlHyBody p.co.bh_y p.co.ch_y p.par.dx (Ny - 1) Ez Db q.1 q.2) =
      forRange 1 (Nx - 1) ⟨p.psi.Hxy1, p.psi.Hxy2, F⟩ (fun i s => forRange 1 (T - 1 + 1) s
        (pmlHyBody p.co.bh_y p.co.ch_y p.par.dx (Ny - 1) Ez Db i))) ∧
    (∀ order : List (ℤ × ℤ), order.Perm (rectList 1 (T - 1 + 1) 1 (Ny - 1)) →
      forList order ⟨p.psi.Hyx1, p.psi.Hyx2, F⟩ (fun q => pmlHxBody p.co.bh_x p.co.ch_x p.par.dx (Nx - 1) Ez Db q.1 q.2) =
      forRange 1 (T - 1 + 1) ⟨p.psi.Hyx1, p.psi.Hyx2, F⟩ (fun i s => forRange 1 (Ny - 1) s
        (pmlHxBody p.co.bh_x p.co.ch_x p.par.dx (Nx - 1) Ez Db i))) := by
  refine ⟨?_, ?_, ?_, ?_⟩
  · intro order ho
    rw [pmlEy_closed _ _ _ Nx Ny T Hx Cb _ _ _ hy hT hp.be_y hp.ce_y hHx hCb hp.Ezy1 hp.Ezy2 hF]
    have := forList_perm_closed (pmlEySt p.co.be_y p.co.ce_y p.par.dx Ny Hx Cb p.psi.Ezy1 p.psi.Ezy2 F) _ _ _ _
      (pmlEyBody p.co.be_y p.co.ce_y p.par.dx (Ny - 1) Hx Cb)
      (fun i j hr D hD hn => pmlEy_step _ _ _ Nx Ny T Hx Cb _ _ _ hy hT hp.be_y hp.ce_y hHx hCb hp.Ezy1 hp.Ezy2 hF i j hr D hD hn)
      order ho
    simpa [pmlEySt] using this
  · intro order ho
    rw [pmlEx_closed _ _ _ Nx Ny T Hy Cb _ _ _ hx hT hp.be_x hp.ce_x hHy hCb hp.Ezx1 hp.Ezx2 hF]
    have := forList_perm_closed (pmlExSt p.co.be_x p.co.ce_x p.par.dx Nx Hy Cb p.psi.Ezx1 p.psi.Ezx2 F) _ _ _ _
      (pmlExBody p.co.be_x p.co.ce_x p.par.dx (Nx - 1) Hy Cb)
      (fun i j hr D hD hn => pmlEx_step _ _ _ Nx Ny T Hy Cb _ _ _ hx hT hp.be_x hp.ce_x hHy hCb hp.Ezx1 hp.Ezx2 hF i j hr D hD hn)
      order ho
    simpa [pmlExSt] using this
  · intro order ho
    rw [pmlHy_closed _ _ _ Nx Ny T Ez Db _ _ _ hy hT hp.bh_y hp.ch_y hEz hDb hp.Hxy1 hp.Hxy2 hF]
    have := forList_perm_closed (pmlHySt p.co.bh_y p.co.ch_y p.par.dx Ny Ez Db p.psi.Hxy1 p.psi.Hxy2 F) _ _ _ _
      (pmlHyBody p.co.bh_y p.co.ch_y p.par.dx (Ny - 1) Ez Db)
      (fun i j hr D hD hn => pmlHy_step _ _ _ Nx Ny T Ez Db _ _ _ hy hT hp.bh_y hp.ch_y hEz hDb hp.Hxy1 hp.Hxy2 hF i j hr D hD hn)
      order ho
    simpa [pmlHySt] using this
  · intro order ho
    rw [pmlHx_closed _ _ _ Nx Ny T Ez Db _ _ _ hx hT hp.bh_x hp.ch_x hEz hDb hp.Hyx1 hp.Hyx2 hF]
    have := forList_perm_closed (pmlHxSt p.co.bh_x p.co.ch_x p.par.dx Nx Ez Db p.psi.Hyx1 p.psi.Hyx2 F) _ _ _ _
      (pmlHxBody p.co.bh_x p.co.ch_x p.par.dx (Nx - 1) Ez Db)
      (fun i j hr D hD hn => pmlHx_step _ _ _ Nx Ny T Ez Db _ _ _ hx hT hp.bh_x hp.ch_x hEz hDb hp.Hyx1 hp.Hyx2 hF i j hr D hD hn)
      order ho
    simpa [pmlHxSt] using this

/-- The hypotheses are met by fields of 5 by 4 nodes, and the loops then do visit nodes. -/
example : (⟨.const 5 4 1, .const 5 4 2, .const 5 4 0, .const 5 4 1, .const 5 4 1, .const 5 4 1, .const 5 4 1⟩ :
      Flds ℝ).Dims 5 4 ∧ (⟨.const 5 1, .const 5 1, .const 4 1, .const 4 1⟩ : Scaling ℝ).Dims 5 4 ∧
      ((2, 1) : ℤ × ℤ) ∈ rectList 1 (5 - 1) 1 (4 - 1) :=
  ⟨⟨⟨rfl, rfl⟩, ⟨rfl, rfl⟩, ⟨rfl, rfl⟩, ⟨rfl, rfl⟩, ⟨rfl, rfl⟩, ⟨rfl, rfl⟩, ⟨rfl, rfl⟩⟩, ⟨rfl, rfl, rfl, rfl⟩, by
    rw [mem_rectList]; norm_num⟩

/-! ## C14: no access out of bounds -/

/-- **C14** (stepping). On a grid at least two nodes wider than the absorbing layer the constructor and any number of
calls of `update()` with usable sources run without any fault. -/
theorem C14_stepping_safe (g : Grid K) (hg : g.Wide) (srcs : List (Source K)) (hs : ∀ s ∈ srcs, Fits g s) (n : ℕ) :
    ∃ c, Core.make g = .ok c ∧ ∃ c' srcs', c.run n srcs = .ok (c', srcs') := by
  obtain ⟨c, h1, h2, h3, -, -, -⟩ := Core.make_ok (g := g) (by have := hg.nx; omega) (by have := hg.ny; omega)
  obtain ⟨c', s', h4, -⟩ := Core.run_ok n h2 (by rw [h3]; exact hg) srcs (by rw [h3]; exact hs)
  exact ⟨c, h1, c', s', h4⟩

/-- **C14** (the guard is necessary). On a grid with at least one inner node that is not two nodes wider than the layer,
either the constructor or the first call of `update()` accesses an array out of range, whatever the sources. -/
theorem C14_guard_necessary (g : Grid K) (hx : 3 ≤ g.Nx) (hy : 3 ≤ g.Ny) (hg : ¬ g.Wide) :
    Core.make g = .error (.ub .oob) ∨
    ∃ c, Core.make g = .ok c ∧ ∀ srcs, c.update srcs = .error (.ub .oob) := by
  by_cases h : g.Nx < g.T + 1 ∨ g.Ny < g.T + 1
  · exact Or.inl (Core.make_narrow (by omega) (by omega) h)
  · push Not at h
    obtain ⟨c, h1, h2, h3, -, -, -⟩ := Core.make_ok (g := g) h.1 h.2
    subst h3
    exact Or.inr ⟨c, h1, fun srcs => Core.update_narrow h2 h.1 h.2 hg hx hy srcs⟩

/-- A grid of 10 by 8 nodes with a layer of 3 nodes is wide enough, one of 10 by 4 nodes is not. -/
example : (⟨9, 7, 10, 8, 1, 1 / 2, 1, 3⟩ : Grid ℝ).Wide ∧ ¬ (⟨9, 3, 10, 4, 1, 1 / 2, 1, 3⟩ : Grid ℝ).Wide :=
  ⟨⟨by norm_num, by norm_num⟩, fun h => by have := h.ny; norm_num at this⟩

end Qbox.Props
