import Verif.Lemmas.WF

/-! # Closed forms of the material loops -/

namespace Qbox
open Scalar

set_option linter.unusedSectionVars false

variable {K : Type} [Scalar K]

/-- The fields with the coefficients of `k` at the nodes in `D` that satisfy `q`. -/
def Flds.paint (f : Flds K) (k : MatKind K) (dt : K) (q : ℤ → ℤ → Bool) (D : Finset (ℤ × ℤ)) : Flds K :=
  { f with
    Ca := f.Ca.setv fun x y => if (x, y) ∈ D ∧ q x y = true then k.Ca dt else f.Ca.val x y
    Cb := f.Cb.setv fun x y => if (x, y) ∈ D ∧ q x y = true then k.Cb dt else f.Cb.val x y
    Da := f.Da.setv fun x y => if (x, y) ∈ D ∧ q x y = true then k.Da dt else f.Da.val x y
    Db := f.Db.setv fun x y => if (x, y) ∈ D ∧ q x y = true then k.Db dt else f.Db.val x y }

theorem Flds.paint_empty (f : Flds K) (k : MatKind K) (dt : K) (q) : f.paint k dt q ∅ = f := by
  cases f; simp [Flds.paint, Tensor.setv]

theorem Flds.paint_dims {f : Flds K} {Nx Ny : ℤ} (h : f.Dims Nx Ny) (k : MatKind K) (dt : K) (q) (D) :
    (f.paint k dt q D).Dims Nx Ny := ⟨h.Ez, h.Hx, h.Hy, h.Ca, h.Cb, h.Da, h.Db⟩

theorem setMat_in {f : Flds K} {Nx Ny : ℤ} (h : f.Dims Nx Ny) (k : MatKind K) (dt : K) {i j : ℤ}
    (h1 : 0 ≤ i) (h2 : i < Nx) (h3 : 0 ≤ j) (h4 : j < Ny) :
    setMat k dt i j f = .ok { f with
      Ca := f.Ca.setv fun x y => if x = i ∧ y = j then k.Ca dt else f.Ca.val x y
      Cb := f.Cb.setv fun x y => if x = i ∧ y = j then k.Cb dt else f.Cb.val x y
      Da := f.Da.setv fun x y => if x = i ∧ y = j then k.Da dt else f.Da.val x y
      Db := f.Db.setv fun x y => if x = i ∧ y = j then k.Db dt else f.Db.val x y } := by
  obtain ⟨-, -, -, ⟨e4, e4'⟩, ⟨e5, e5'⟩, ⟨e6, e6'⟩, ⟨e7, e7'⟩⟩ := h
  unfold setMat
  simp (disch := omega) only [Tensor.wr_in, Except.ok_bind, Except.pure_eq]

theorem setMat_step {f : Flds K} {Nx Ny : ℤ} (h : f.Dims Nx Ny) (k : MatKind K) (dt : K) (q : ℤ → ℤ → Bool) {i j : ℤ}
    (h1 : 0 ≤ i) (h2 : i < Nx) (h3 : 0 ≤ j) (h4 : j < Ny) (hq : q i j = true) (D : Finset (ℤ × ℤ)) :
    setMat k dt i j (f.paint k dt q D) = .ok (f.paint k dt q (insert (i, j) D)) := by
  rw [setMat_in (f.paint_dims h k dt q D) k dt h1 h2 h3 h4]
  refine congrArg Except.ok ?_
  unfold Flds.paint
  congr 1 <;>
  · refine Tensor.ext' rfl rfl fun x y => ?_
    simp only [Tensor.setv_val, Finset.mem_insert, Prod.mk.injEq]
    by_cases hx : x = i ∧ y = j
    · obtain ⟨rfl, rfl⟩ := hx; simp [hq]
    · simp [hx]

/-- The scanned box of an object contains no inside node that does not exist. -/
def Object.Safe (g : Grid K) (o : Object K) : Prop :=
  ∀ i j : ℤ, (objBox g o).a.x ≤ i → i ≤ (objBox g o).b.x → (objBox g o).a.y ≤ j → j ≤ (objBox g o).b.y →
    o.inside (g.toReal ⟨i, j⟩) = true → 0 ≤ i ∧ i < g.Nx ∧ 0 ≤ j ∧ j < g.Ny

/-- The nodes scanned for an object. -/
def scan (g : Grid K) (o : Object K) : Finset (ℤ × ℤ) :=
  rect (objBox g o).a.x ((objBox g o).b.x + 1) (objBox g o).a.y ((objBox g o).b.y + 1)

theorem paintObject_closed {g : Grid K} {o : Object K} {f : Flds K} (hf : f.Dims g.Nx g.Ny) (ho : o.Safe g) :
    paintObject g o f =
      .ok (f.paint o.mat.kind g.dt (fun x y => o.inside (g.toReal ⟨x, y⟩)) (scan g o)) := by
  have := forRange2_closed (fun D => f.paint o.mat.kind g.dt (fun x y => o.inside (g.toReal ⟨x, y⟩)) D)
    (objBox g o).a.x ((objBox g o).b.x + 1) (objBox g o).a.y ((objBox g o).b.y + 1)
    (fun i j f => if o.inside (g.toReal ⟨i, j⟩) then setMat o.mat.kind g.dt i j f else .ok f)
    (by
      intro i j h1 h2 h3 h4 D hD hn
      by_cases hi : o.inside (g.toReal ⟨i, j⟩) = true
      · obtain ⟨b1, b2, b3, b4⟩ := ho i j h1 (by omega) h3 (by omega) hi
        simp only [hi, if_true]
        exact setMat_step hf _ _ _ b1 b2 b3 b4 hi D
      · simp only [hi, if_false]
        refine congrArg Except.ok ?_
        unfold Flds.paint
        congr 1 <;>
        · refine Tensor.ext' rfl rfl fun x y => ?_
          simp only [Tensor.setv_val, Finset.mem_insert, Prod.mk.injEq]
          by_cases hx : x = i ∧ y = j
          · obtain ⟨rfl, rfl⟩ := hx; simp [hi]
          · simp [hx])
  rw [Flds.paint_empty] at this
  exact this

theorem clearMaterials_closed {g : Grid K} {f : Flds K} (hf : f.Dims g.Nx g.Ny) :
    clearMaterials g f = .ok (f.paint (.simple vacuum) g.dt (fun _ _ => true) (rect 0 g.Nx 0 g.Ny)) := by
  have := forRange2_closed (fun D => f.paint (.simple vacuum) g.dt (fun _ _ => true) D)
    0 g.Nx 0 g.Ny (fun i j f => setMat (.simple vacuum) g.dt i j f)
    (fun i j h1 h2 h3 h4 D _ _ => setMat_step hf _ _ _ h1 h2 h3 h4 rfl D)
  rw [Flds.paint_empty] at this
  exact this

/-- Coefficient tensor with the pole values in the cells of `D` that satisfy `q`. -/
def Tensor3.paint (b : Tensor3 K) (vals : ℤ → K) (q : ℤ → ℤ → Bool) (D : Finset (ℤ × ℤ)) : Tensor3 K :=
  b.setv fun x y N => if (x, y) ∈ D ∧ q x y = true ∧ 0 ≤ N ∧ N < b.nz then vals N else b.val x y N

theorem insertLoop_closed {g : Grid K} {o : Object K} {b : Tensor3 K} {np : ℤ} {vals : Arr K}
    (hb : b.Dim g.Nx g.Ny np) (hv : vals.n = np) :
    insertLoop g np vals o b =
      .ok (b.paint vals.val (fun x y => o.inside (g.toReal ⟨x, y⟩)) (rect 0 g.Nx 0 g.Ny)) := by
  obtain ⟨b1, b2, b3⟩ := hb
  have := forRange2_closed (fun D => b.paint vals.val (fun x y => o.inside (g.toReal ⟨x, y⟩)) D)
    0 g.Nx 0 g.Ny
    (fun i j b => if o.inside (g.toReal ⟨i, j⟩) then
      forRange 0 np b (fun N b => do b.wr i j N (← vals.rd N)) else .ok b)
    (by
      intro i j h1 h2 h3 h4 D hD hn
      by_cases hi : o.inside (g.toReal ⟨i, j⟩) = true
      · simp only [hi, if_true]
        by_cases hnp : 0 ≤ np
        · have hs := forRange_seq (fun M => b.setv fun x y N =>
            if ((x, y) ∈ D ∧ o.inside (g.toReal ⟨x, y⟩) = true ∧ 0 ≤ N ∧ N < b.nz) ∨ (x = i ∧ y = j ∧ 0 ≤ N ∧ N < M)
              then vals.val N else b.val x y N) 0 np hnp (fun N b => do b.wr i j N (← vals.rd N))
            (by
              intro N hN0 hN1
              simp (disch := first | omega | (simp only [Tensor3.setv_nx, Tensor3.setv_ny, Tensor3.setv_nz]; omega)) only
                [Arr.rd_in, Tensor3.wr_in, Except.ok_bind]
              refine congrArg Except.ok (Tensor3.ext' rfl rfl rfl fun x y k => ?_)
              simp only [Tensor3.setv_val]
              by_cases hx : x = i ∧ y = j ∧ k = N
              · obtain ⟨rfl, rfl, rfl⟩ := hx
                simp [hN0]
              · simp only [hx, if_false]
                congr 1
                apply propext
                constructor
                · rintro (h | h)
                  · exact Or.inl h
                  · exact Or.inr ⟨h.1, h.2.1, h.2.2.1, by omega⟩
                · rintro (h | h)
                  · exact Or.inl h
                  · refine Or.inr ⟨h.1, h.2.1, h.2.2.1, ?_⟩
                    have : k ≠ N := fun hk => hx ⟨h.1, h.2.1, hk⟩
                    omega)
          have e0 : (b.setv fun x y N =>
              if ((x, y) ∈ D ∧ o.inside (g.toReal ⟨x, y⟩) = true ∧ 0 ≤ N ∧ N < b.nz) ∨ (x = i ∧ y = j ∧ 0 ≤ N ∧ N < 0)
                then vals.val N else b.val x y N) =
              b.paint vals.val (fun x y => o.inside (g.toReal ⟨x, y⟩)) D := by
            refine Tensor3.ext' rfl rfl rfl fun x y k => ?_
            simp only [Tensor3.paint, Tensor3.setv_val]
            congr 1
            apply propext
            constructor
            · rintro (h | h)
              · exact h
              · omega
            · exact Or.inl
          rw [← e0]
          rw [hs]
          refine congrArg Except.ok (Tensor3.ext' rfl rfl rfl fun x y k => ?_)
          simp only [Tensor3.paint, Tensor3.setv_val, Finset.mem_insert, Prod.mk.injEq]
          congr 1
          apply propext
          constructor
          · rintro (h | ⟨rfl, rfl, h1, h2⟩)
            · exact ⟨Or.inr h.1, h.2⟩
            · exact ⟨Or.inl ⟨rfl, rfl⟩, hi, h1, by omega⟩
          · rintro ⟨h | h, hh⟩
            · exact Or.inr ⟨h.1, h.2, hh.2.1, by have := hh.2.2; omega⟩
            · exact Or.inl ⟨h, hh⟩
        · have : ∀ x : Tensor3 K, forRange 0 np x (fun N b => do b.wr i j N (← vals.rd N)) = .ok x := by
            intro x; simp [forRange, intRange_empty (show np ≤ 0 by omega)]
          rw [this]
          refine congrArg Except.ok (Tensor3.ext' rfl rfl rfl fun x y k => ?_)
          simp only [Tensor3.paint, Tensor3.setv_val]
          have hz : ¬ (0 ≤ k ∧ k < b.nz) := by omega
          simp [hz]
      · simp only [hi, if_false]
        refine congrArg Except.ok (Tensor3.ext' rfl rfl rfl fun x y k => ?_)
        simp only [Tensor3.paint, Tensor3.setv_val, Finset.mem_insert, Prod.mk.injEq]
        by_cases hx : x = i ∧ y = j
        · obtain ⟨rfl, rfl⟩ := hx; simp [hi]
        · simp [hx])
  have e : b.paint vals.val (fun x y => o.inside (g.toReal ⟨x, y⟩)) ∅ = b := by
    cases b; simp [Tensor3.paint, Tensor3.setv]
  rw [e] at this
  exact this

end Qbox
