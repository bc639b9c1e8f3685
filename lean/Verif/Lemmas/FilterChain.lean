import Verif.Lemmas.NodeStep
import Verif.Lemmas.Reach

/-!
# The poles of a node as a chain of filters

Every Debye or Drude pole turns the field value that it is given into the value that it passes on, with a memory of one number. Two such filters in a
row give the same output in either order, if they start at rest. -/

namespace Qbox
open Scalar Spec Props

/-- One pole at one node: its weight in the field, its decay, its strength and its current. -/
structure FCell where
  a : ℝ
  k : ℝ
  b : ℝ
  J : ℝ

def FCell.next (c : FCell) (x : ℝ) : FCell := { c with J := c.k * c.J + c.b * (x - c.a * c.J) }

/-- The value that leaves the chain. -/
def chainOut : List FCell → ℝ → ℝ
  | [], x => x
  | c :: l, x => chainOut l (x - c.a * c.J)

/-- The chain after the value has passed. -/
def chainNext : List FCell → ℝ → List FCell
  | [], _ => []
  | c :: l, x => c.next x :: chainNext l (x - c.a * c.J)

theorem chainOut_append (A B : List FCell) (x : ℝ) : chainOut (A ++ B) x = chainOut B (chainOut A x) := by
  induction A generalizing x with
  | nil => rfl
  | cons c A ih => exact ih _

theorem chainNext_append (A B : List FCell) (x : ℝ) : chainNext (A ++ B) x = chainNext A x ++ chainNext B (chainOut A x) := by
  induction A generalizing x with
  | nil => rfl
  | cons c A ih => simp only [List.cons_append, chainNext, chainOut, ih]

/-- Chains that pass on the same values: by leaving out a pole at rest that has no strength, and by changing two neighbours. -/
inductive Alike : List FCell → List FCell → Prop
  | refl (l) : Alike l l
  | symm {l l'} : Alike l l' → Alike l' l
  | trans {l l' l''} : Alike l l' → Alike l' l'' → Alike l l''
  | drop (A B c) : c.b = 0 → c.J = 0 → Alike (A ++ c :: B) (A ++ B)
  | swap (A B) (p q : FCell) (J K : ℝ) : p.a * (p.J - J) + q.a * (q.J - K) = 0 → (p.k - q.k) * (p.J - J) + q.a * (p.b * q.J - q.b * J) = 0 →
      Alike (A ++ p :: q :: B) (A ++ { q with J := K } :: { p with J := J } :: B)

theorem Alike.step {l l' : List FCell} (h : Alike l l') (x : ℝ) : chainOut l' x = chainOut l x ∧ Alike (chainNext l x) (chainNext l' x) := by
  induction h generalizing x with
  | refl l => exact ⟨rfl, .refl _⟩
  | symm _ ih => exact ⟨((ih x).1).symm, (ih x).2.symm⟩
  | trans _ _ ih1 ih2 => exact ⟨((ih2 x).1).trans (ih1 x).1, (ih1 x).2.trans (ih2 x).2⟩
  | drop A B c h1 h2 =>
    have e : c.next (chainOut A x) = c := by unfold FCell.next; rw [h1, h2]; cases c; simp_all
    have e2 : chainOut A x - c.a * c.J = chainOut A x := by rw [h2]; ring
    rw [chainOut_append, chainOut_append, chainNext_append, chainNext_append]
    simp only [chainOut, chainNext, e2, e]
    exact ⟨trivial, .drop _ _ c h1 h2⟩
  | swap A B p q J K h1 h2 =>
    rw [chainOut_append, chainOut_append, chainNext_append, chainNext_append]
    simp only [chainOut, chainNext]
    have e : chainOut A x - q.a * K - p.a * J = chainOut A x - p.a * p.J - q.a * q.J := by linarith
    refine ⟨by rw [e], ?_⟩
    rw [e]
    obtain ⟨y, hy⟩ : ∃ y, y = chainOut A x := ⟨_, rfl⟩
    rw [← hy] at e ⊢
    have out : y - q.a * K - p.a * J = y - p.a * p.J - q.a * q.J := e
    have s := Alike.swap (chainNext A x) (chainNext B (y - p.a * p.J - q.a * q.J)) (p.next y) (q.next (y - p.a * p.J)) (p.k * J + p.b * (y - q.a * K - p.a * J))
      (q.k * K + q.b * (y - q.a * K)) (by
        simp only [FCell.next]
        linear_combination q.k * h1 + p.a * h2 + (- (p.a * p.b) - q.a * q.b) * h1) (by
        simp only [FCell.next]
        linear_combination p.k * h2 + (- (p.k - q.k) * p.b - p.b * q.a * q.b) * h1)
    exact s

/-- Chains at rest may be put in any order. -/
theorem Alike.cons {l l' : List FCell} (h : Alike l l') (c : FCell) : Alike (c :: l) (c :: l') := by
  induction h with
  | refl l => exact .refl _
  | symm _ ih => exact ih.symm
  | trans _ _ ih1 ih2 => exact ih1.trans ih2
  | drop A B d h1 h2 => exact .drop (c :: A) B d h1 h2
  | swap A B p q J K h1 h2 => exact .swap (c :: A) B p q J K h1 h2

theorem alike_perm {l l' : List FCell} (h : l.Perm l') (h0 : ∀ c ∈ l, c.J = 0) : Alike l l' := by
  induction h with
  | nil => exact .refl _
  | cons c _ ih => exact (ih fun d hd => h0 d (by simp [hd])).cons c
  | swap p q l =>
    have hp := h0 p (by simp)
    have hq := h0 q (by simp)
    have := Alike.swap [] l q p q.J p.J (by ring) (by rw [hp, hq]; ring)
    exact this
  | trans p _ ih1 ih2 => exact (ih1 h0).trans (ih2 fun d hd => h0 d (p.mem_iff.mpr hd))

/-- Cells that never do anything. -/
theorem alike_nil {l : List FCell} (h0 : ∀ c ∈ l, c.b = 0 ∧ c.J = 0) : Alike l [] := by
  induction l with
  | nil => exact .refl _
  | cons c l ih =>
    exact (Alike.drop [] l c (h0 c (by simp)).1 (h0 c (by simp)).2).trans (ih fun d hd => h0 d (by simp [hd]))

theorem Alike.append {l l' k k' : List FCell} (h : Alike l l') (h' : Alike k k') : Alike (l ++ k) (l' ++ k') := by
  have right : Alike (l ++ k) (l' ++ k) := by
    clear h'
    induction h with
    | refl l => exact .refl _
    | symm _ ih => exact ih.symm
    | trans _ _ ih1 ih2 => exact ih1.trans ih2
    | drop A B d h1 h2 =>
      have := Alike.drop A (B ++ k) d h1 h2
      simpa using this
    | swap A B p q J K h1 h2 =>
      have := Alike.swap A (B ++ k) p q J K h1 h2
      simpa using this
  refine right.trans ?_
  clear h right
  induction l' with
  | nil => exact h'
  | cons c l' ih => exact ih.cons c

/-- The cells of the poles `0, …, n-1`. -/
def cellsOf (a k b m : ℤ → ℝ) (n : ℕ) : List FCell := (List.range n).map fun N : ℕ => ⟨a N, k N, b N, m N⟩

/-- The loop over the poles in one cell of the grid is a chain. -/
theorem iter_chain {a k b : ℤ → ℝ} {s : ℝ} {step : ℤ → ℝ → ℝ → ℝ × ℝ} (hs : ∀ N E J, step N E J = (E - a N * J, k N * J + b N * (E - a N * J + s))) (E : ℝ) (m : ℤ → ℝ)
    (n : ℕ) : chainOut (cellsOf a k b m n) (E + s) = (cellIter step n (E, m)).1 + s ∧
      chainNext (cellsOf a k b m n) (E + s) = cellsOf a k b (cellIter step n (E, m)).2 n := by
  induction n with
  | zero => exact ⟨rfl, rfl⟩
  | succ n ih =>
    obtain ⟨i1, i2⟩ := ih
    have last : ∀ m', cellsOf a k b m' (n + 1) = cellsOf a k b m' n ++ [⟨a n, k n, b n, m' n⟩] := by
      intro m'
      unfold cellsOf
      rw [List.range_succ, List.map_append]
      rfl
    have keep : (cellIter step n (E, m)).2 n = m n := cellIter_ge step n (E, m) n le_rfl
    rw [last, chainOut_append, chainNext_append, i1, i2, last, cellIter_succ, hs, keep]
    refine ⟨?_, ?_⟩
    · simp only [chainOut]; ring
    · simp only [chainNext, FCell.next, if_true]
      congr 1
      · unfold cellsOf
        refine List.map_congr_left fun N hN => ?_
        simp only
        rw [if_neg (by have := List.mem_range.mp hN; omega)]
      · congr 2
        ring

/-- The cells of all entries of a map at a node. -/
def mapCells {P : Type} (cells : P → ℤ → ℤ → List FCell) (l : List (String × P)) (i j : ℤ) : List FCell := l.flatMap fun e => cells e.2 i j

/-- What an update of one polarization does at the nodes. -/
def ChainStep {P : Type} (g : Grid ℝ) (upd : P → Tensor ℝ → M (P × Tensor ℝ)) (cells : P → ℤ → ℤ → List FCell) (s : ℤ → ℤ → ℝ) (p : P) : Prop :=
  ∀ E p' F, E.Dim g.Nx g.Ny → upd p E = .ok (p', F) → F.Dim g.Nx g.Ny ∧ ∀ i j,
    if (i, j) ∈ rect 0 g.Nx 0 g.Ny then F.val i j + s i j = chainOut (cells p i j) (E.val i j + s i j) ∧ cells p' i j = chainNext (cells p i j) (E.val i j + s i j)
    else F.val i j = E.val i j

theorem map_chain {P : Type} {g : Grid ℝ} {upd : P → Tensor ℝ → M (P × Tensor ℝ)} {cells : P → ℤ → ℤ → List FCell} {s : ℤ → ℤ → ℝ} :
    ∀ {l l' : List (String × P)} {E F : Tensor ℝ}, (∀ e ∈ l, ChainStep g upd cells s e.2) → E.Dim g.Nx g.Ny → mapUpdateJ upd l E = .ok (l', F) →
      F.Dim g.Nx g.Ny ∧ ∀ i j,
      if (i, j) ∈ rect 0 g.Nx 0 g.Ny then F.val i j + s i j = chainOut (mapCells cells l i j) (E.val i j + s i j) ∧
        mapCells cells l' i j = chainNext (mapCells cells l i j) (E.val i j + s i j)
      else F.val i j = E.val i j
  | [], l', E, F, _, hE, h => by
    cases h
    refine ⟨hE, fun i j => ?_⟩
    split
    · exact ⟨rfl, rfl⟩
    · rfl
  | (n, p) :: l, l', E, F, hs, hE, h => by
    unfold mapUpdateJ at h
    obtain ⟨⟨p', E1⟩, h1, h⟩ := (Except.bind_ok ..).mp h
    obtain ⟨⟨l1, E2⟩, h2, h⟩ := (Except.bind_ok ..).mp h
    cases h
    obtain ⟨d1, v1⟩ := hs (n, p) (by simp) E p' E1 hE h1
    obtain ⟨d2, v2⟩ := map_chain (fun e he => hs e (by simp [he])) d1 h2
    refine ⟨d2, fun i j => ?_⟩
    have a1 := v1 i j
    have a2 := v2 i j
    split
    next hd =>
      rw [if_pos hd] at a1 a2
      have f : ∀ (m : String) (q : P) (k : List (String × P)), mapCells cells ((m, q) :: k) i j = cells q i j ++ mapCells cells k i j := fun _ _ _ => rfl
      rw [f, f, chainOut_append, chainNext_append, ← a1.1, ← a1.2]
      exact ⟨a2.1, by rw [a2.2]⟩
    next hd =>
      rw [if_neg hd] at a1 a2
      rw [a2, a1]

/-- Maps that are alike at every node change the field in the same way. -/
theorem map_alike {P : Type} {g : Grid ℝ} {upd : P → Tensor ℝ → M (P × Tensor ℝ)} {cells : P → ℤ → ℤ → List FCell} {s : ℤ → ℤ → ℝ}
    {l l' k k' : List (String × P)} {E F F' : Tensor ℝ} (hs : ∀ e ∈ l, ChainStep g upd cells s e.2) (hs' : ∀ e ∈ l', ChainStep g upd cells s e.2)
    (hE : E.Dim g.Nx g.Ny) (h : ∀ i j, (i, j) ∈ rect 0 g.Nx 0 g.Ny → Alike (mapCells cells l i j) (mapCells cells l' i j))
    (hu : mapUpdateJ upd l E = .ok (k, F)) (hu' : mapUpdateJ upd l' E = .ok (k', F')) :
    F' = F ∧ ∀ i j, (i, j) ∈ rect 0 g.Nx 0 g.Ny → Alike (mapCells cells k i j) (mapCells cells k' i j) := by
  obtain ⟨d, v⟩ := map_chain hs hE hu
  obtain ⟨d', v'⟩ := map_chain hs' hE hu'
  refine ⟨Tensor.ext' (by rw [d'.1, d.1]) (by rw [d'.2, d.2]) fun i j => ?_, fun i j hd => ?_⟩
  · have a := v i j
    have a' := v' i j
    split at a
    next hd =>
      rw [if_pos hd] at a'
      have := ((h i j hd).step (E.val i j + s i j)).1
      linarith [a.1, a'.1]
    next hd =>
      rw [if_neg hd] at a'
      rw [a, a']
  · have a := v i j
    have a' := v' i j
    rw [if_pos hd] at a a'
    rw [a.2, a'.2]
    exact ((h i j hd).step _).2

noncomputable def debyeCells (g : Grid ℝ) (P : DebyePol ℝ) (i j : ℤ) : List FCell :=
  cellsOf (fun N => P.mat.Cb g.dt * half * (1 + (Arr.ofList (P.mat.poles.map (·.kappa g.dt))).val N)) (Arr.ofList (P.mat.poles.map (·.kappa g.dt))).val
    (fun N => P.beta.val i j N / g.dt) (P.J.val i j) P.np.toNat

noncomputable def drudeCells (g : Grid ℝ) (P : DrudePol ℝ) (i j : ℤ) : List FCell :=
  cellsOf (fun N => P.mat.Cb g.dt * half * (1 + (Arr.ofList (P.mat.poles.map (·.kappa g.dt))).val N)) (Arr.ofList (P.mat.poles.map (·.kappa g.dt))).val
    (fun N => P.beta.val i j N) (P.J.val i j) P.np.toNat

theorem debye_chainStep {g : Grid ℝ} {P : DebyePol ℝ} (w : P.WF g.Nx g.Ny) {pE : Tensor ℝ} (hp : pE.Dim g.Nx g.Ny) :
    ChainStep g (fun P E => P.updateJ g (some pE) E) (debyeCells g) (fun i j => - pE.val i j) P := by
  intro E p' F hE h
  simp only [DebyePol.updateJ_closed w hp hE] at h
  obtain ⟨rfl, rfl⟩ := Prod.mk.inj (Except.ok.inj h)
  refine ⟨hE, fun i j => ?_⟩
  split
  next hd =>
    have key := iter_chain (a := fun N => P.mat.Cb g.dt * half * (1 + (Arr.ofList (P.mat.poles.map (·.kappa g.dt))).val N))
      (k := (Arr.ofList (P.mat.poles.map (·.kappa g.dt))).val) (b := fun N => P.beta.val i j N / g.dt) (s := - pE.val i j)
      (step := debyeStep g.dt (P.mat.Cb g.dt) (Arr.ofList (P.mat.poles.map (·.kappa g.dt))).val (P.beta.val i j) (pE.val i j)) (fun N E J => rfl)
      (E.val i j) (P.J.val i j) P.np.toNat
    refine ⟨?_, ?_⟩
    · rw [Tensor.setv_val, if_pos hd]
      exact key.1.symm
    · refine Eq.trans ?_ key.2.symm
      unfold debyeCells
      simp only [Tensor3.setv_val, if_pos hd]
      rfl
  next hd => rw [Tensor.setv_val, if_neg hd]

theorem drude_chainStep {g : Grid ℝ} {P : DrudePol ℝ} (w : P.WF g.Nx g.Ny) {pE : Tensor ℝ} (hp : pE.Dim g.Nx g.Ny) :
    ChainStep g (fun P E => P.updateJ g (some pE) E) (drudeCells g) (fun i j => pE.val i j) P := by
  intro E p' F hE h
  simp only [DrudePol.updateJ_closed w hp hE] at h
  obtain ⟨rfl, rfl⟩ := Prod.mk.inj (Except.ok.inj h)
  refine ⟨hE, fun i j => ?_⟩
  split
  next hd =>
    have key := iter_chain (a := fun N => P.mat.Cb g.dt * half * (1 + (Arr.ofList (P.mat.poles.map (·.kappa g.dt))).val N))
      (k := (Arr.ofList (P.mat.poles.map (·.kappa g.dt))).val) (b := fun N => P.beta.val i j N) (s := pE.val i j)
      (step := drudeStep (P.mat.Cb g.dt) (Arr.ofList (P.mat.poles.map (·.kappa g.dt))).val (P.beta.val i j) (pE.val i j)) (fun N E J => rfl)
      (E.val i j) (P.J.val i j) P.np.toNat
    refine ⟨?_, ?_⟩
    · rw [Tensor.setv_val, if_pos hd]
      exact key.1.symm
    · refine Eq.trans ?_ key.2.symm
      unfold drudeCells
      simp only [Tensor3.setv_val, if_pos hd]
      rfl
  next hd => rw [Tensor.setv_val, if_neg hd]

/-! ## The whole state -/

/-- Physical states whose Debye and Drude poles are alike at every node. -/
structure AlikeParts (c c' : Core ℝ) : Prop where
  same : c' = { c with debye := c'.debye, drude := c'.drude, lorentz := c'.lorentz }
  debye : ∀ i j, (i, j) ∈ rect 0 c.g.Nx 0 c.g.Ny → Alike (mapCells (debyeCells c.g) c.debye i j) (mapCells (debyeCells c.g) c'.debye i j)
  drude : ∀ i j, (i, j) ∈ rect 0 c.g.Nx 0 c.g.Ny → Alike (mapCells (drudeCells c.g) c.drude i j) (mapCells (drudeCells c.g) c'.drude i j)
  lorentz : c'.lorentz.map (·.2) = c.lorentz.map (·.2)

structure AlikeCore (c c' : Core ℝ) : Prop where
  std : c.Std
  std' : c'.Std
  parts : AlikeParts c c'

theorem mapUpdateJ_values {P : Type} {upd : P → Tensor ℝ → M (P × Tensor ℝ)} : ∀ {l l' : List (String × P)} {E : Tensor ℝ} {k k' : List (String × P)} {F F' : Tensor ℝ},
    l'.map (·.2) = l.map (·.2) → mapUpdateJ upd l E = .ok (k, F) → mapUpdateJ upd l' E = .ok (k', F') → F' = F ∧ k'.map (·.2) = k.map (·.2)
  | [], [], E, k, k', F, F', _, h, h' => by cases h; cases h'; exact ⟨rfl, rfl⟩
  | [], _ :: _, _, _, _, _, _, e, _, _ => by cases e
  | _ :: _, [], _, _, _, _, _, e, _, _ => by cases e
  | (n, p) :: l, (n', p') :: l', E, k, k', F, F', e, h, h' => by
    obtain ⟨rfl, e'⟩ := List.cons.inj e
    unfold mapUpdateJ at h h'
    obtain ⟨⟨q, E1⟩, h1, h⟩ := (Except.bind_ok ..).mp h
    obtain ⟨⟨l1, E2⟩, h2, h⟩ := (Except.bind_ok ..).mp h
    obtain ⟨⟨q', E1'⟩, h1', h'⟩ := (Except.bind_ok ..).mp h'
    obtain ⟨⟨l1', E2'⟩, h2', h'⟩ := (Except.bind_ok ..).mp h'
    cases h
    cases h'
    rw [h1] at h1'
    obtain ⟨rfl, rfl⟩ := Prod.mk.inj (Except.ok.inj h1')
    obtain ⟨rfl, e2⟩ := mapUpdateJ_values e' h2 h2'
    exact ⟨rfl, by simp [e2]⟩

theorem AlikeCore.update {c c' : Core ℝ} (h : AlikeCore c c') (srcs : List (Source ℝ)) (hf : ∀ s ∈ srcs, Fits c.g s) :
    ∃ d d' k, c.update srcs = .ok (d, k) ∧ c'.update srcs = .ok (d', k) ∧ d.g = c.g ∧ (∀ s ∈ k, Fits c.g s) ∧ AlikeCore d d' := by
  obtain ⟨w, w', e, t1, t2, t3⟩ := h
  obtain ⟨d, k, hu, wd, gd, fk⟩ := Core.update_std w srcs hf
  have gc : c'.g = c.g := by rw [e]
  have fc : c'.f = c.f := by rw [e]
  have ec : c'.E1 = c.E1 := by rw [e]; rfl
  have pc : c'.prevE = c.prevE := by rw [e]
  have tc : c'.tfsf = c.tfsf := by rw [e]
  obtain ⟨d', k', hu', wd', gd', fk'⟩ := Core.update_std w' srcs (by rw [gc]; exact hf)
  rw [gd] at fk
  obtain ⟨xd, E2, xr, E3, xl, E4, E5, h2, d2, h3, d3, h4, d4, h5, d5, hE⟩ := Core.stageE_parts w.wf w.wide
  obtain ⟨yd, F2, yr, F3, yl, F4, F5, i2, -, i3, -, i4, -, i5, -, iE⟩ := Core.stageE_parts w'.wf w'.wide
  have wl := w.wf
  have wl' := w'.wf
  have dE1 : c.E1.Dim c.g.Nx c.g.Ny := wl.f.Ez
  rw [ec, gc, fc] at i2
  rw [gc, fc] at i3
  rw [gc, pc] at i4
  rw [tc] at i5
  obtain ⟨rfl, v1⟩ := map_alike (fun e he => debye_chainStep (wl.debye e he) wl.f.Ez) (fun e he => debye_chainStep (by rw [← gc]; exact wl'.debye e he) wl.f.Ez) dE1 t1 h2 i2
  obtain ⟨rfl, v2⟩ := map_alike (fun e he => drude_chainStep (wl.drude e he) wl.f.Ez) (fun e he => drude_chainStep (by rw [← gc]; exact wl'.drude e he) wl.f.Ez) d2 t2 h3 i3
  obtain ⟨rfl, v3⟩ := mapUpdateJ_values t3 h4 i4
  rw [h5] at i5
  cases i5
  clear w w' gd gd' gc fk' wl wl' fc ec pc tc
  generalize c'.debye = x1 at e t1 i2 iE
  generalize c'.drude = x2 at e t2 i3 iE
  generalize c'.lorentz = x3 at e t3 i4 iE
  subst e
  unfold Core.update at hu hu'
  rw [hE] at hu
  rw [iE] at hu'
  simp only [Except.ok_bind] at hu hu'
  obtain ⟨⟨s1, f1⟩, hp, hu⟩ := (Except.bind_ok ..).mp hu
  obtain ⟨⟨s1', f1'⟩, hp', hu'⟩ := (Except.bind_ok ..).mp hu'
  rw [hp] at hp'
  cases hp'
  obtain ⟨d1, hH, hu⟩ := (Except.bind_ok ..).mp hu
  obtain ⟨d1', hH', hu'⟩ := (Except.bind_ok ..).mp hu'
  cases hu
  cases hu'
  refine ⟨_, _, _, ?_, ?_, ?_, fk, wd, wd', ?_⟩
  · unfold Core.update
    rw [hE]
    simp only [Except.ok_bind, hp, hH]
    rfl
  · unfold Core.update
    rw [iE]
    simp only [Except.ok_bind, hp, hH']
    rfl
  all_goals
    unfold Core.stageH at hH hH'
    obtain ⟨z1, v1', hH⟩ := (Except.bind_ok ..).mp hH
    obtain ⟨z2, v2', hH⟩ := (Except.bind_ok ..).mp hH
    obtain ⟨⟨z3, z4, z5⟩, v3', hH⟩ := (Except.bind_ok ..).mp hH
    obtain ⟨z6, v4, hH⟩ := (Except.bind_ok ..).mp hH
    simp only [v1', v2', v3', v4, Except.ok_bind] at hH'
    cases hH
    cases hH'
  · rfl
  · exact ⟨rfl, v1, v2, v3⟩

theorem AlikeCore.run : ∀ (n : ℕ) {c c' : Core ℝ}, AlikeCore c c' → ∀ srcs : List (Source ℝ), (∀ s ∈ srcs, Fits c.g s) →
    ∃ d d' k, c.run n srcs = .ok (d, k) ∧ c'.run n srcs = .ok (d', k) ∧ AlikeCore d d'
  | 0, c, c', h, srcs, _ => ⟨c, c', srcs, rfl, rfl, h⟩
  | n + 1, c, c', h, srcs, hf => by
    obtain ⟨d, d', k, h1, h2, g, hk, t⟩ := h.update srcs hf
    obtain ⟨e, e', k', h3, h4, t'⟩ := AlikeCore.run n t k (by rw [g]; exact hk)
    refine ⟨e, e', k', ?_, ?_, t'⟩
    · unfold Core.run
      rw [h1]
      exact h3
    · unfold Core.run
      rw [h2]
      exact h4

end Qbox
