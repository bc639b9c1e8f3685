import Verif.Lemmas.MonSafe
import Verif.Lemmas.CoreOps
import Verif.Lemmas.Layout

/-! # No undefined behaviour: monitors, time monitors and whole calls -/

namespace Qbox
open Scalar Spec

set_option linter.unusedSectionVars false

/-- `x` is not undefined behaviour. -/
def NoUB {α : Type} (x : M α) : Prop := ∀ u, x ≠ .error (.ub u)

theorem NoUB.ok {α : Type} (a : α) : NoUB (.ok a : M α) := fun _ h => by cases h
theorem NoUB.pure {α : Type} (a : α) : NoUB (Pure.pure a : M α) := fun _ h => by cases h
theorem NoUB.exn {α : Type} (m : String) : NoUB (.error (.exn m) : M α) := fun _ h => by cases h

theorem NoUB.of_ok {α : Type} {x : M α} {a : α} (h : x = .ok a) : NoUB x := by rw [h]; exact NoUB.ok a

theorem NoUB.bind {α β : Type} {x : M α} {f : α → M β} (hx : NoUB x) (hf : ∀ a, x = .ok a → NoUB (f a)) : NoUB (x >>= f) := by
  intro u h
  cases x with
  | error e => exact hx u (by rw [Except.error_bind] at h; cases h; rfl)
  | ok a => exact hf a rfl u h

/-- The call does not end in undefined behaviour, and leaves a state with `P`; if `b`, a dangling reference may be used. -/
def Res.Good {σ : Type} (b : Prop) (P : σ → Prop) : Res σ → Prop
  | .ok s => P s
  | .threw _ s => P s
  | .ub u => b ∧ u = .dangling

theorem tryM_good {σ β : Type} {B : Prop} {P : σ → Prop} {x : M β} {s : σ} {k : β → Res σ} (hx : NoUB x) (hs : P s)
    (hk : ∀ b, x = .ok b → (k b).Good B P) : (tryM x s k).Good B P := by
  unfold tryM
  split
  · exact hk _ rfl
  · exact hs
  · exact absurd rfl (hx _)

theorem tryM_good_ok {σ β : Type} {B : Prop} {P : σ → Prop} {x : M β} {b : β} {s : σ} {k : β → Res σ} (hx : x = .ok b) (hk : (k b).Good B P) :
    (tryM x s k).Good B P := by
  rw [hx]; exact hk

theorem tryM_good_or {σ β : Type} {B : Prop} {P : σ → Prop} {R : β → Prop} {x : M β} {s : σ} {k : β → Res σ}
    (hx : (∃ b, x = .ok b ∧ R b) ∨ (B ∧ x = .error (.ub .dangling))) (hk : ∀ b, R b → (k b).Good B P) : (tryM x s k).Good B P := by
  rcases hx with ⟨b, rfl, hb⟩ | ⟨hb, rfl⟩
  · exact hk b hb
  · exact ⟨hb, rfl⟩

theorem Res.Good.andThen {σ : Type} {B : Prop} {P : σ → Prop} {r : Res σ} {k : σ → Res σ} (h : r.Good B P) (hk : ∀ s, P s → (k s).Good B P) :
    (r.andThen k).Good B P := by
  cases r with
  | ok s => exact hk s h
  | threw m s => exact h
  | ub u => exact h

theorem Res.Good.imp {σ : Type} {B : Prop} {P Q : σ → Prop} {r : Res σ} (h : r.Good B P) (hpq : ∀ s, P s → Q s) : r.Good B Q := by
  cases r with
  | ok s => exact hpq s h
  | threw m s => exact hpq s h
  | ub u => exact h

variable {K : Type} [Scalar K]

theorem Clocks.begin_noUB (now : ℕ → ℝ) (c : Clocks) (n : ClockName) : NoUB (c.begin now n) := by
  unfold Clocks.begin
  dsimp only
  split <;> first | exact NoUB.exn _ | exact NoUB.ok _

theorem Clocks.stop_noUB (now : ℕ → ℝ) (c : Clocks) (n : ClockName) : NoUB (c.stop now n) := by
  unfold Clocks.stop
  dsimp only
  split <;> first | exact NoUB.exn _ | exact NoUB.ok _

/-! ## Running transforms -/

theorem forList_pos {P σ : Type} [DecidableEq P] (freq : List K) (t : K) (g : P → σ → M (K × σ)) (Q : σ → Prop) (n : Acc K P) :
    ∀ (l : List P) (_ : ∀ p ∈ l, ∀ m, Q m → ∃ v m', g p m = .ok (v, m') ∧ Q m') (a : Acc K P) (m : σ), a.pos = n.pos → Q m →
      ∃ a' m', forList l (a, m) (accPoint freq t g) = .ok (a', m') ∧ a'.pos = n.pos ∧ Q m'
  | [], _, a, m, ha, hm => ⟨a, m, rfl, ha, hm⟩
  | p :: l, h, a, m, ha, hm => by
    obtain ⟨v, m1, e1, q1⟩ := h p (by simp) m hm
    have e : accPoint freq t g p (a, m) = .ok ({ a with
        re := fun q k => if q = p ∧ 0 ≤ k ∧ k < freq.length then a.re q k + v * dftCos freq t k else a.re q k,
        im := fun q k => if q = p ∧ 0 ≤ k ∧ k < freq.length then a.im q k + v * dftSin freq t k else a.im q k }, m1) := by
      unfold accPoint; rw [e1]; rfl
    obtain ⟨a', m', e2, p2, q2⟩ := forList_pos freq t g Q n l (fun p hp => h p (by simp [hp])) ({ a with
        re := fun q k => if q = p ∧ 0 ≤ k ∧ k < freq.length then a.re q k + v * dftCos freq t k else a.re q k,
        im := fun q k => if q = p ∧ 0 ≤ k ∧ k < freq.length then a.im q k + v * dftSin freq t k else a.im q k } : Acc K P) m1 ha q1
    refine ⟨a', m', ?_, p2, q2⟩
    rw [forList_cons, e, Except.ok_bind]
    exact e2

theorem accLoop_pos {P σ : Type} [DecidableEq P] (freq : List K) (t : K) (g : String → P → σ → M (K × σ)) (Q : σ → Prop) :
    ∀ (l : List (String × Acc K P)) (_ : ∀ a ∈ l, ∀ p ∈ a.2.pos, ∀ m, Q m → ∃ v m', g a.1 p m = .ok (v, m') ∧ Q m') (m : σ), Q m →
      ∃ l' m', accLoop freq t g l m = .ok (l', m') ∧ Q m' ∧ l'.map (fun a => (a.1, a.2.pos)) = l.map (fun a => (a.1, a.2.pos))
  | [], _, m, hm => ⟨[], m, rfl, hm, rfl⟩
  | (n, a) :: l, h, m, hm => by
    obtain ⟨a', m1, e1, p1, q1⟩ := forList_pos freq t (g n) Q a a.pos (h (n, a) (by simp)) a m rfl hm
    obtain ⟨l', m2, e2, q2, k2⟩ := accLoop_pos freq t g Q l (fun b hb => h b (by simp [hb])) m1 q1
    refine ⟨(n, a') :: l', m2, ?_, q2, by simp [k2, p1]⟩
    unfold accLoop
    rw [e1]; simp only [Except.ok_bind]; rw [e2]; rfl

theorem Dft.update_pos {P σ : Type} [DecidableEq P] (d : Dft K P) (g : String → P → σ → M (K × σ)) (t : K) (Q : σ → Prop)
    (h : ∀ e ∈ d.layout, ∀ p ∈ e.2, ∀ m, Q m → ∃ v m', g e.1 p m = .ok (v, m') ∧ Q m') (m : σ) (hm : Q m) :
    ∃ d' m', d.update g t m = .ok (d', m') ∧ Q m' ∧ d'.layout = d.layout := by
  unfold Dft.update
  split
  · exact ⟨d, m, rfl, hm, rfl⟩
  · obtain ⟨l', m', e, q, k⟩ := accLoop_pos d.freq t g Q d.acc
      (fun a ha => h (a.1, a.2.pos) (List.mem_map.mpr ⟨a, ha, rfl⟩)) m hm
    rw [e]
    exact ⟨_, m', rfl, q, k⟩

theorem accSub_layout {P : Type} [DecidableEq P] {nf : ℕ} (o : Dft K P) : ∀ (l l' : List (String × Acc K P)), accSub nf o l = .ok l' →
    l'.map (fun a => (a.1, a.2.pos)) = l.map (fun a => (a.1, a.2.pos))
  | [], l', h => by cases h; rfl
  | (n, a) :: l, l', h => by
    unfold accSub at h
    obtain ⟨b, -, h⟩ := (Except.bind_ok ..).mp h
    split at h
    · obtain ⟨k, h2, h⟩ := (Except.bind_ok ..).mp h
      cases h
      simp [accSub_layout o l k h2, Acc.sub]
    · cases h

theorem accSubLeft_layout {P : Type} (o : Dft K P) : ∀ l : List (String × Acc K P),
    (accSubLeft o l).map (fun a => (a.1, a.2.pos)) = l.map (fun a => (a.1, a.2.pos))
  | [] => rfl
  | (n, a) :: l => by
    unfold accSubLeft
    split
    · simp [accSubLeft_layout o l, Acc.sub]
    · rfl

theorem Dft.subLeft_layout {P : Type} (d o : Dft K P) : (d.subLeft o).layout = d.layout := accSubLeft_layout o d.acc

theorem Dft.get_noUB {P : Type} (o : Dft K P) (n : String) : NoUB (o.get n) := by
  unfold Dft.get; split
  · exact NoUB.ok _
  · exact NoUB.exn _

theorem accSub_noUB {P : Type} [DecidableEq P] {nf : ℕ} (o : Dft K P) : ∀ (l : List (String × Acc K P)),
    (∀ n a b, (n, a) ∈ l → o.get n = .ok b → a.pos = b.pos ∧ nf = o.freq.length) → NoUB (accSub nf o l)
  | [], _ => NoUB.ok _
  | (n, a) :: l, h => by
    unfold accSub
    refine NoUB.bind (Dft.get_noUB _ _) fun b hb => ?_
    rw [if_pos (h n a b (by simp) hb)]
    exact (accSub_noUB o l fun n a b hm => h n a b (by simp [hm])).bind fun _ _ => NoUB.pure _

theorem Dft.sub_noUB {P : Type} [DecidableEq P] (d o : Dft K P)
    (h : ∀ n a b, (n, a) ∈ d.acc → o.get n = .ok b → a.pos = b.pos ∧ d.freq.length = o.freq.length) : NoUB (d.sub o) :=
  (accSub_noUB o d.acc h).bind fun _ _ => NoUB.pure _

theorem Dft.sub_layout {P : Type} [DecidableEq P] {d d' o : Dft K P} (h : d.sub o = .ok d') : d'.layout = d.layout := by
  unfold Dft.sub at h
  obtain ⟨l, h1, h⟩ := (Except.bind_ok ..).mp h
  cases h
  exact accSub_layout o d.acc l h1

/-! ## Monitors -/

/-- All points sampled by an attached surface monitor lie between existing nodes. -/
structure SurfMon.Ready (g : Grid K) (m : SurfMon K) : Prop where
  reads : ∃ is, g.toGridS m.surf = .ok is ∧ ∀ f : Flds K, f.Dims g.Nx g.Ny → ∀ i, 0 ≤ i → i < m.prevE.n →
    (∃ v, f.interpolate g .Ez (surfPoint g m.surf is i) = .ok v) ∧ (∃ v, f.interpolate g .Hx (surfPoint g m.surf is i) = .ok v) ∧
      ∃ v, f.interpolate g .Hy (surfPoint g m.surf is i) = .ok v
  keys : ∀ e ∈ m.fourier.layout, (e.1 = "Ez" ∨ e.1 = "Hx" ∨ e.1 = "Hy") ∧ ∀ p ∈ e.2, 0 ≤ p ∧ p < m.prevE.n

theorem Arr.rd_in' {a : Arr K} {i : ℤ} (h0 : 0 ≤ i) (h1 : i < a.n) : ∃ v, a.rd i = .ok v := by
  unfold Arr.rd; rw [if_pos ⟨h0, h1⟩]; exact ⟨_, rfl⟩

theorem Arr.wr_in' {a : Arr K} {i : ℤ} {v : K} (h0 : 0 ≤ i) (h1 : i < a.n) : ∃ b, a.wr i v = .ok b ∧ b.n = a.n := by
  unfold Arr.wr; rw [if_pos ⟨h0, h1⟩]; exact ⟨_, rfl, rfl⟩

theorem SurfMon.update_ready {g : Grid K} {f : Flds K} (hf : f.Dims g.Nx g.Ny) (t : K) {m : SurfMon K} (h : m.Ready g) :
    ∃ m', m.update g f t = .ok m' ∧ m'.Ready g := by
  obtain ⟨⟨is, hi, hr⟩, hk⟩ := h
  obtain ⟨d', p', e, q, k⟩ := Dft.update_pos m.fourier (surfSample g f m.surf is) t (fun p => p.n = m.prevE.n) (by
    intro e he i hp p hn
    obtain ⟨kk, kp⟩ := hk e he
    obtain ⟨i0, i1⟩ := kp i hp
    obtain ⟨⟨vE, rE⟩, ⟨vx, rx⟩, vy, ry⟩ := hr f hf i i0 i1
    unfold surfSample
    rcases kk with kk | kk | kk
    · obtain ⟨o, ho⟩ := Arr.rd_in' (a := p) i0 (by omega)
      obtain ⟨b, hb, hbn⟩ := Arr.wr_in' (a := p) (i := i) (v := vE) i0 (by omega)
      simp only [kk, if_true, rE, Except.ok_bind, ho, hb]
      exact ⟨_, _, rfl, hbn.trans hn⟩
    · have c1 : "Hx" ≠ "Ez" := by decide
      simp only [kk, if_true, if_neg c1, rx, Except.ok_bind]
      exact ⟨_, _, rfl, hn⟩
    · have c1 : "Hy" ≠ "Ez" := by decide
      have c2 : "Hy" ≠ "Hx" := by decide
      simp only [kk, if_true, if_neg c1, if_neg c2, ry, Except.ok_bind]
      exact ⟨_, _, rfl, hn⟩) m.prevE rfl
  refine ⟨{ m with fourier := d', prevE := p' }, ?_, ⟨is, hi, ?_⟩, ?_⟩
  · unfold SurfMon.update
    rw [hi, Except.ok_bind, e]; rfl
  · intro f hf i h0 h1; exact hr f hf i h0 (by rw [← q]; exact h1)
  · intro e he
    rw [show ({ m with fourier := d', prevE := p' } : SurfMon K).fourier.layout = m.fourier.layout from k] at he
    obtain ⟨a, b⟩ := hk e he
    exact ⟨a, fun p hp => ⟨(b p hp).1, by show p < p'.n; rw [q]; exact (b p hp).2⟩⟩

theorem SurfMon.Ready.sub {g : Grid K} {m m' o : SurfMon K} (h : m.Ready g) (he : m.sub o = .ok m') : m'.Ready g := by
  unfold SurfMon.sub at he
  obtain ⟨d, h1, he⟩ := (Except.bind_ok ..).mp he
  cases he
  exact ⟨h.reads, by
    intro e he
    rw [show ({ m with fourier := d } : SurfMon K).fourier.layout = m.fourier.layout from Dft.sub_layout h1] at he
    exact h.keys e he⟩

theorem SurfMon.Ready.fourier {g : Grid K} {m : SurfMon K} (h : m.Ready g) {d : Dft K ℤ} (hd : d.layout = m.fourier.layout) :
    ({ m with fourier := d } : SurfMon K).Ready g :=
  ⟨h.reads, fun e he => h.keys e (by rw [← hd]; exact he)⟩

/-- All nodes read by an attached volume monitor exist. -/
structure VolMon.Ready (g : Grid K) (m : VolMon K) : Prop where
  keys : ∀ e ∈ m.fourier.layout, (e.1 = "Ez" ∨ e.1 = "Hx" ∨ e.1 = "Hy") ∧
    ∀ q ∈ e.2, 0 ≤ (g.toGridV m.vol).a.x + q.1 ∧ (g.toGridV m.vol).a.x + q.1 < g.Nx ∧
      0 ≤ (g.toGridV m.vol).a.y + q.2 ∧ (g.toGridV m.vol).a.y + q.2 < g.Ny

theorem Tensor.rd_in' {a : Tensor K} {n m i j : ℤ} (h : a.Dim n m) (h1 : 0 ≤ i) (h2 : i < n) (h3 : 0 ≤ j) (h4 : j < m) : ∃ v, a.rd i j = .ok v := by
  obtain ⟨e1, e2⟩ := h
  unfold Tensor.rd; rw [if_pos ⟨h1, by omega, h3, by omega⟩]; exact ⟨_, rfl⟩

theorem VolMon.update_ready {g : Grid K} {f : Flds K} (hf : f.Dims g.Nx g.Ny) (t : K) {m : VolMon K} (h : m.Ready g) :
    ∃ m', m.update g f t = .ok m' ∧ m'.Ready g := by
  obtain ⟨hk⟩ := h
  obtain ⟨d', p', e, -, k⟩ := Dft.update_pos m.fourier (volSample f (g.toGridV m.vol)) t (fun _ => True) (by
    intro e he q hp p _
    obtain ⟨kk, kp⟩ := hk e he
    obtain ⟨i0, i1, i2, i3⟩ := kp q hp
    unfold volSample
    rcases kk with kk | kk | kk
    · obtain ⟨v, hv⟩ := Tensor.rd_in' hf.Ez i0 i1 i2 i3
      have hv : f.Ez.rd ((g.toGridV m.vol).a + ⟨q.1, q.2⟩ : V2 ℤ).x ((g.toGridV m.vol).a + ⟨q.1, q.2⟩ : V2 ℤ).y = .ok v := hv
      simp only [kk, if_true, hv, Except.ok_bind]
      exact ⟨_, _, rfl, trivial⟩
    · obtain ⟨v, hv⟩ := Tensor.rd_in' hf.Hx i0 i1 i2 i3
      have hv : f.Hx.rd ((g.toGridV m.vol).a + ⟨q.1, q.2⟩ : V2 ℤ).x ((g.toGridV m.vol).a + ⟨q.1, q.2⟩ : V2 ℤ).y = .ok v := hv
      have c1 : "Hx" ≠ "Ez" := by decide
      simp only [kk, if_true, if_neg c1, hv, Except.ok_bind]
      exact ⟨_, _, rfl, trivial⟩
    · obtain ⟨v, hv⟩ := Tensor.rd_in' hf.Hy i0 i1 i2 i3
      have hv : f.Hy.rd ((g.toGridV m.vol).a + ⟨q.1, q.2⟩ : V2 ℤ).x ((g.toGridV m.vol).a + ⟨q.1, q.2⟩ : V2 ℤ).y = .ok v := hv
      have c1 : "Hy" ≠ "Ez" := by decide
      have c2 : "Hy" ≠ "Hx" := by decide
      simp only [kk, if_true, if_neg c1, if_neg c2, hv, Except.ok_bind]
      exact ⟨_, _, rfl, trivial⟩) () trivial
  refine ⟨{ m with fourier := d' }, ?_, ⟨?_⟩⟩
  · unfold VolMon.update
    rw [e]; rfl
  · intro e he
    rw [show ({ m with fourier := d' } : VolMon K).fourier.layout = m.fourier.layout from k] at he
    exact hk e he

/-- All points sampled by an attached cylinder monitor lie between existing nodes. -/
structure CylMon.Ready (g : Grid K) (m : CylMon K) : Prop where
  reads : ∀ f : Flds K, f.Dims g.Nx g.Ny → ∀ i, 0 ≤ i → i < m.prevE.n →
    (∃ v, f.interpolate g .Ez (m.surf.position (cylTheta m.length i)) = .ok v) ∧
      (∃ v, f.interpolate g .Hx (m.surf.position (cylTheta m.length i)) = .ok v) ∧
      ∃ v, f.interpolate g .Hy (m.surf.position (cylTheta m.length i)) = .ok v
  keys : ∀ e ∈ m.fourier.layout, (e.1 = "Ez" ∨ e.1 = "Hp" ∨ e.1 = "Hr") ∧ ∀ p ∈ e.2, 0 ≤ p ∧ p < m.prevE.n

theorem CylMon.update_ready {g : Grid K} {f : Flds K} (hf : f.Dims g.Nx g.Ny) (t : K) {m : CylMon K} (h : m.Ready g) :
    ∃ m', m.update g f t = .ok m' ∧ m'.Ready g := by
  obtain ⟨hr, hk⟩ := h
  obtain ⟨d', p', e, q, k⟩ := Dft.update_pos m.fourier (cylSample g f m.surf m.length) t (fun p => p.n = m.prevE.n) (by
    intro e he i hp p hn
    obtain ⟨kk, kp⟩ := hk e he
    obtain ⟨i0, i1⟩ := kp i hp
    obtain ⟨⟨vE, rE⟩, ⟨vx, rx⟩, vy, ry⟩ := hr f hf i i0 i1
    unfold cylSample
    rcases kk with kk | kk | kk
    · obtain ⟨o, ho⟩ := Arr.rd_in' (a := p) i0 (by omega)
      obtain ⟨b, hb, hbn⟩ := Arr.wr_in' (a := p) (i := i) (v := vE) i0 (by omega)
      simp only [kk, if_true, rE, Except.ok_bind, ho, hb]
      exact ⟨_, _, rfl, hbn.trans hn⟩
    · have c1 : "Hp" ≠ "Ez" := by decide
      simp only [kk, if_true, if_neg c1, rx, ry, Except.ok_bind]
      exact ⟨_, _, rfl, hn⟩
    · have c1 : "Hr" ≠ "Ez" := by decide
      have c2 : "Hr" ≠ "Hp" := by decide
      simp only [kk, if_true, if_neg c1, if_neg c2, rx, ry, Except.ok_bind]
      exact ⟨_, _, rfl, hn⟩) m.prevE rfl
  refine ⟨{ m with fourier := d', prevE := p' }, ?_, ?_, ?_⟩
  · unfold CylMon.update
    rw [e]; rfl
  · intro f hf i h0 h1; exact hr f hf i h0 (by rw [← q]; exact h1)
  · intro e he
    rw [show ({ m with fourier := d', prevE := p' } : CylMon K).fourier.layout = m.fourier.layout from k] at he
    obtain ⟨a, b⟩ := hk e he
    exact ⟨a, fun p hp => ⟨(b p hp).1, by show p < p'.n; rw [q]; exact (b p hp).2⟩⟩

/-- The monitor is attached and reads only existing nodes. Point monitors never are: see `PointMon.update`. -/
def Monitor.Ready (B : Prop) (g : Grid K) : Monitor K → Prop
  | .surf m => m.Ready g
  | .box m => ∀ s ∈ m.faces, s.Ready g
  | .vol m => m.Ready g
  | .point m => B ∧ ∀ e ∈ m.fourier.layout, e.1 = "Ez" ∨ e.1 = "Hx" ∨ e.1 = "Hy"
  | .cyl m => m.Ready g

theorem mapM'_ready {α : Type} {step : α → M α} {Q : α → Prop} : ∀ (l : List α), (∀ a ∈ l, ∃ a', step a = .ok a' ∧ Q a') →
    ∃ l', mapM' step l = .ok l' ∧ ∀ a ∈ l', Q a
  | [], _ => ⟨[], rfl, by simp⟩
  | a :: l, h => by
    obtain ⟨a', e1, q1⟩ := h a (by simp)
    obtain ⟨l', e2, q2⟩ := mapM'_ready l (fun b hb => h b (by simp [hb]))
    refine ⟨a' :: l', ?_, ?_⟩
    · unfold mapM'; rw [e1, Except.ok_bind, e2]; rfl
    · intro b hb
      rcases List.mem_cons.mp hb with rfl | hb
      · exact q1
      · exact q2 b hb

theorem mapM'_ready_or {α : Type} {B : Prop} {step : α → M α} {Q : α → Prop} : ∀ (l : List α),
    (∀ a ∈ l, (∃ a', step a = .ok a' ∧ Q a') ∨ (B ∧ step a = .error (.ub .dangling))) →
    (∃ l', mapM' step l = .ok l' ∧ ∀ a ∈ l', Q a) ∨ (B ∧ mapM' step l = .error (.ub .dangling))
  | [], _ => .inl ⟨[], rfl, by simp⟩
  | a :: l, h => by
    rcases h a (by simp) with ⟨a', e1, q1⟩ | ⟨hb, e1⟩
    · rcases mapM'_ready_or l (fun b hb => h b (by simp [hb])) with ⟨l', e2, q2⟩ | ⟨hb, e2⟩
      · refine .inl ⟨a' :: l', ?_, ?_⟩
        · unfold mapM'; rw [e1, Except.ok_bind, e2]; rfl
        · intro b hb
          rcases List.mem_cons.mp hb with rfl | hb
          · exact q1
          · exact q2 b hb
      · exact .inr ⟨hb, by unfold mapM'; rw [e1, Except.ok_bind, e2]; rfl⟩
    · exact .inr ⟨hb, by unfold mapM'; rw [e1]; rfl⟩

theorem accLoop_dangling {P σ : Type} [DecidableEq P] (freq : List K) (t : K) (g : String → P → σ → M (K × σ)) :
    ∀ (l : List (String × Acc K P)) (_ : ∀ a ∈ l, ∀ p m, g a.1 p m = .error (.ub .dangling)) (m : σ),
      accLoop freq t g l m = .ok (l, m) ∨ accLoop freq t g l m = .error (.ub .dangling)
  | [], _, m => .inl rfl
  | (n, a) :: l, h, m => by
    unfold accLoop
    cases hp : a.pos with
    | nil =>
      have e : forList ([] : List P) (a, m) (accPoint freq t (g n)) = .ok (a, m) := rfl
      rw [e]
      simp only [Except.ok_bind]
      rcases accLoop_dangling freq t g l (fun b hb => h b (by simp [hb])) m with e | e
      · exact .inl (by rw [e]; rfl)
      · exact .inr (by rw [e]; rfl)
    | cons p ps =>
      refine .inr ?_
      have e : accPoint freq t (g n) p (a, m) = .error (.ub .dangling) := by
        unfold accPoint; rw [h (n, a) (by simp)]; rfl
      rw [forList_cons, e]
      rfl

theorem PointMon.update_or (f : Flds K) (t : K) (m : PointMon K) (h : ∀ e ∈ m.fourier.layout, e.1 = "Ez" ∨ e.1 = "Hx" ∨ e.1 = "Hy") :
    (∃ m', m.update f t = .ok m' ∧ m'.fourier.layout = m.fourier.layout) ∨ m.update f t = .error (.ub .dangling) := by
  unfold PointMon.update PointMon.updateWith Dft.update
  split
  · exact .inl ⟨_, rfl, rfl⟩
  · rcases accLoop_dangling m.fourier.freq t (pointSample f (.error (.ub .dangling))) m.fourier.acc (by
      intro a ha p x
      unfold pointSample
      rcases h (a.1, a.2.pos) (List.mem_map.mpr ⟨a, ha, rfl⟩) with k | k | k <;> simp only at k <;> rw [k] <;> rfl) m.prevE with e | e
    · rw [e]; exact .inl ⟨_, rfl, rfl⟩
    · rw [e]; exact .inr rfl

theorem Monitor.update_ready {B : Prop} {g : Grid K} {f : Flds K} (hf : f.Dims g.Nx g.Ny) (t : K) {m : Monitor K} (h : m.Ready B g) :
    (∃ m', m.update g f t = .ok m' ∧ m'.Ready B g) ∨ (B ∧ m.update g f t = .error (.ub .dangling)) := by
  cases m with
  | surf m =>
    obtain ⟨m', e, r⟩ := SurfMon.update_ready hf t h
    exact .inl ⟨.surf m', by unfold Monitor.update; simp only [e]; rfl, r⟩
  | box m =>
    obtain ⟨l, e, r⟩ := mapM'_ready (step := SurfMon.update g f t) (Q := SurfMon.Ready g) m.faces (fun s hs => SurfMon.update_ready hf t (h s hs))
    exact .inl ⟨.box { m with faces := l }, by unfold Monitor.update BoxMon.update; simp only [e]; rfl, r⟩
  | vol m =>
    obtain ⟨m', e, r⟩ := VolMon.update_ready hf t h
    exact .inl ⟨.vol m', by unfold Monitor.update; simp only [e]; rfl, r⟩
  | point m =>
    rcases PointMon.update_or f t m h.2 with ⟨m', e, k⟩ | e
    · exact .inl ⟨.point m', by unfold Monitor.update; simp only [e]; rfl, h.1, by rw [k]; exact h.2⟩
    · exact .inr ⟨h.1, by unfold Monitor.update; simp only [e]; rfl⟩
  | cyl m =>
    obtain ⟨m', e, r⟩ := CylMon.update_ready hf t h
    exact .inl ⟨.cyl m', by unfold Monitor.update; simp only [e]; rfl, r⟩

theorem subFaces_ready {g : Grid K} : ∀ (l k l' : List (SurfMon K)), (∀ s ∈ l, s.Ready g) → subFaces l k = .ok l' → ∀ s ∈ l', s.Ready g
  | [], _, l', _, he => by simp only [subFaces] at he; cases he; simp
  | _ :: _, [], l', h, he => by simp only [subFaces] at he; cases he; exact h
  | m :: l, o :: k, l', h, he => by
    unfold subFaces at he
    obtain ⟨a, h1, he⟩ := (Except.bind_ok ..).mp he
    obtain ⟨b, h2, he⟩ := (Except.bind_ok ..).mp he
    cases he
    intro s hs
    rcases List.mem_cons.mp hs with rfl | hs
    · exact (h m (by simp)).sub h1
    · exact subFaces_ready l k b (fun c hc => h c (by simp [hc])) h2 s hs

theorem subFacesLeft_ready {g : Grid K} : ∀ (l k : List (SurfMon K)), (∀ s ∈ l, s.Ready g) → ∀ s ∈ subFacesLeft l k, s.Ready g
  | [], _, _ => by simp [subFacesLeft]
  | _ :: _, [], h => by simpa [subFacesLeft] using h
  | m :: l, o :: k, h => by
    intro s hs
    unfold subFacesLeft at hs
    split at hs
    · rename_i m' e
      rcases List.mem_cons.mp hs with rfl | hs
      · exact (h m (by simp)).sub e
      · exact subFacesLeft_ready l k (fun c hc => h c (by simp [hc])) s hs
    · rcases List.mem_cons.mp hs with rfl | hs
      · exact (h m (by simp)).fourier (Dft.subLeft_layout _ _)
      · exact h s (by simp [hs])

theorem CylMon.Ready.fourier {g : Grid K} {m : CylMon K} (h : m.Ready g) {d : Dft K ℤ} (hd : d.layout = m.fourier.layout) :
    ({ m with fourier := d } : CylMon K).Ready g := by
  have hr := CylMon.Ready.reads h
  exact CylMon.Ready.mk hr fun e he => CylMon.Ready.keys h e (by rw [← hd]; exact he)

theorem VolMon.Ready.fourier {g : Grid K} {m : VolMon K} (h : m.Ready g) {d : Dft K (ℤ × ℤ)} (hd : d.layout = m.fourier.layout) :
    ({ m with fourier := d } : VolMon K).Ready g :=
  ⟨fun e he => VolMon.Ready.keys h e (by rw [← hd]; exact he)⟩

theorem Monitor.Ready.sub {B : Prop} {g : Grid K} {m m' o : Monitor K} (h : m.Ready B g) (he : m.sub o = .ok m') : m'.Ready B g := by
  unfold Monitor.sub at he
  split at he
  case h_10 => cases he; exact h
  case h_4 =>
    obtain ⟨k, h1, he⟩ := (Except.bind_ok ..).mp he
    cases he
    unfold BoxMon.sub at h1
    obtain ⟨l, h2, h1⟩ := (Except.bind_ok ..).mp h1
    cases h1
    exact subFaces_ready _ _ _ h h2
  all_goals
    obtain ⟨k, h1, he⟩ := (Except.bind_ok ..).mp he
    cases he
  · exact SurfMon.Ready.sub h h1
  · exact SurfMon.Ready.fourier h (Dft.sub_layout h1)
  · exact SurfMon.Ready.fourier h (Dft.sub_layout h1)
  · exact VolMon.Ready.fourier h (Dft.sub_layout h1)
  · refine ⟨h.1, fun e he => ?_⟩
    simp only at he
    rw [Dft.sub_layout h1] at he
    exact h.2 e he
  · exact CylMon.Ready.fourier h (Dft.sub_layout h1)
  · exact CylMon.Ready.fourier h (Dft.sub_layout h1)
  · exact CylMon.Ready.fourier h (Dft.sub_layout h1)

theorem Monitor.Ready.subLeft {B : Prop} {g : Grid K} {m o : Monitor K} (h : m.Ready B g) : (m.subLeft o).Ready B g := by
  unfold Monitor.subLeft
  split
  · exact SurfMon.Ready.fourier h (Dft.subLeft_layout _ _)
  · exact SurfMon.Ready.fourier h (Dft.subLeft_layout _ _)
  · exact SurfMon.Ready.fourier h (Dft.subLeft_layout _ _)
  · exact subFacesLeft_ready _ _ h
  · exact VolMon.Ready.fourier h (Dft.subLeft_layout _ _)
  · exact ⟨h.1, fun e he => h.2 e (by rw [← Dft.subLeft_layout]; exact he)⟩
  · exact CylMon.Ready.fourier h (Dft.subLeft_layout _ _)
  · exact CylMon.Ready.fourier h (Dft.subLeft_layout _ _)
  · exact CylMon.Ready.fourier h (Dft.subLeft_layout _ _)
  · exact h

/-! ## Time monitors -/

/-- The counter cannot divide by zero or overflow. -/
def Every.Ready (e : Every) : Prop := e.never = true ∨ (1 ≤ e.nRepeat.natAbs ∧ e.nRepeat.natAbs < 2 ^ 31 ∧ 1 ≤ e.n ∧ e.n ≤ e.nRepeat.natAbs)

theorem Every.check_ready {e : Every} (h : e.Ready) : ∃ b e', e.check = .ok (b, e') ∧ e'.Ready := by
  unfold Every.check
  cases hn : e.never with
  | true => exact ⟨_, _, rfl, Or.inl hn⟩
  | false =>
    obtain ⟨h1, h2, h3, h4⟩ := h.resolve_left (by simp [hn])
    have c1 : ¬ e.nRepeat = 0 := by omega
    rw [if_neg (by simp), if_neg c1]
    by_cases c2 : e.n.tmod e.nRepeat = 0
    · rw [if_pos c2]
      exact ⟨_, _, rfl, Or.inr ⟨h1, h2, le_refl 1, by simp only; omega⟩⟩
    · have c3 : e.n ≠ e.nRepeat.natAbs := by
        intro hc
        apply c2
        rw [hc]
        exact Int.tmod_eq_zero_of_dvd (Int.dvd_natAbs.mpr (dvd_refl _))
      rw [if_neg c2, if_neg (by omega)]
      exact ⟨_, _, rfl, Or.inr ⟨h1, h2, by simp only; omega, by simp only; omega⟩⟩

/-- The nodes of the time monitor exist. -/
def TShape.Ready (g : Grid K) (s : TShape K) : Prop := ∀ a : Tensor K, a.Dim g.Nx g.Ny → NoUB (s.snapshot g a)

structure TMon.Ready (g : Grid K) (m : TMon K) : Prop where
  shape : m.shape.Ready g
  every : m.outFreq.Ready

theorem Flds.get_noUB {f : Flds K} {g : Grid K} (hf : f.Dims g.Nx g.Ny) (A : Fields) : NoUB (f.get A) ∧ ∀ a, f.get A = .ok a → a.Dim g.Nx g.Ny := by
  cases A
  · exact ⟨NoUB.ok _, fun a h => by cases h; exact hf.Ez⟩
  · exact ⟨NoUB.ok _, fun a h => by cases h; exact hf.Hx⟩
  · exact ⟨NoUB.ok _, fun a h => by cases h; exact hf.Hy⟩
  all_goals exact ⟨NoUB.exn _, fun a h => by cases h⟩

theorem File.create_noUB (F : File K) (k : Option String × Fields) (r : Row K) : NoUB (F.create k r) := by
  unfold File.create
  split
  · exact NoUB.exn _
  · split
    · exact NoUB.exn _
    · exact NoUB.ok _

theorem File.openGroup_noUB (F : File K) (n : String) : NoUB (F.openGroup n) := by
  unfold File.openGroup
  split
  · exact NoUB.ok _
  · split
    · exact NoUB.exn _
    · exact NoUB.ok _

/-- No undefined behaviour, and the monitor returned is as good as before. -/
def Safe2 {α β : Type} (Q : α → Prop) (x : M (α × β)) : Prop := NoUB x ∧ ∀ a b, x = .ok (a, b) → Q a

theorem Safe2.bind {α β γ δ : Type} {Q : α → Prop} {R : γ → Prop} {x : M (α × β)} {k : α × β → M (γ × δ)} (h : Safe2 Q x)
    (hk : ∀ a b, Q a → Safe2 R (k (a, b))) : Safe2 R (x >>= k) := by
  refine ⟨h.1.bind fun q hq => (hk q.1 q.2 (h.2 _ _ hq)).1, fun a b hab => ?_⟩
  obtain ⟨q, h1, h2⟩ := (Except.bind_ok ..).mp hab
  exact (hk q.1 q.2 (h.2 _ _ h1)).2 a b h2

theorem TMon.writeImpl_safe {g : Grid K} {f : Flds K} (hf : f.Dims g.Nx g.Ny) (A : Fields) {m : TMon K} (hm : m.Ready g) (F : File K) :
    Safe2 (TMon.Ready g) (m.writeImpl g f A F) := by
  obtain ⟨n1, d1⟩ := Flds.get_noUB hf A
  unfold TMon.writeImpl
  refine ⟨n1.bind fun a ha => (hm.shape a (d1 a ha)).bind fun r _ => ?_, fun m' F' h => ?_⟩
  · split
    · exact NoUB.pure _
    · exact (File.openGroup_noUB _ _).bind fun _ _ => (File.create_noUB _ _ _).bind fun _ _ => NoUB.pure _
  · obtain ⟨a, -, h⟩ := (Except.bind_ok ..).mp h
    obtain ⟨r, -, h⟩ := (Except.bind_ok ..).mp h
    split at h
    · cases h; exact hm
    · obtain ⟨F1, -, h⟩ := (Except.bind_ok ..).mp h
      obtain ⟨F2, -, h⟩ := (Except.bind_ok ..).mp h
      cases h
      exact ⟨hm.shape, hm.every⟩

theorem TMon.write_safe {g : Grid K} {f : Flds K} (hf : f.Dims g.Nx g.Ny) {m : TMon K} (hm : m.Ready g) (F : File K) :
    Safe2 (TMon.Ready g) (m.write g f F) := by
  unfold TMon.write TMon.writeA
  split
  · exact TMon.writeImpl_safe hf _ hm F
  · exact (TMon.writeImpl_safe hf _ hm F).bind fun m1 F1 h1 => TMon.writeImpl_safe hf _ h1 F1
  · exact (TMon.writeImpl_safe hf _ hm F).bind fun m1 F1 h1 => (TMon.writeImpl_safe hf _ h1 F1).bind fun m2 F2 h2 => TMon.writeImpl_safe hf _ h2 F2
  · exact TMon.writeImpl_safe hf _ hm F

theorem TMon.writeIfReady_safe {g : Grid K} {f : Flds K} (hf : f.Dims g.Nx g.Ny) {m : TMon K} (hm : m.Ready g) (F : File K) :
    Safe2 (TMon.Ready g) (m.writeIfReady g f F) := by
  obtain ⟨b, e, h1, h2⟩ := Every.check_ready hm.every
  unfold TMon.writeIfReady
  rw [h1, Except.ok_bind]
  have hm' : ({ m with outFreq := e } : TMon K).Ready g := ⟨hm.shape, h2⟩
  dsimp only
  split
  · exact TMon.write_safe hf hm' F
  · exact ⟨NoUB.pure _, fun a b h => by cases h; exact hm'⟩

theorem writeReady_safe {g : Grid K} {f : Flds K} (hf : f.Dims g.Nx g.Ny) : ∀ (l : List (TMon K)) (F : File K), (∀ m ∈ l, m.Ready g) →
    Safe2 (fun l => ∀ m ∈ l, m.Ready g) (writeReady g f l F)
  | [], F, _ => ⟨NoUB.ok _, fun a b h => by cases h; simp⟩
  | m :: l, F, h => by
    unfold writeReady
    refine (TMon.writeIfReady_safe hf (h m (by simp)) F).bind fun m1 F1 h1 => ?_
    refine (writeReady_safe hf l F1 (fun m hm => h m (by simp [hm]))).bind fun l1 F2 h2 => ⟨NoUB.pure _, fun a b e => ?_⟩
    cases e
    intro m hm
    rcases List.mem_cons.mp hm with rfl | hm
    · exact h1
    · exact h2 m hm

theorem TMon.writeImplLeft_monitor (g : Grid K) (f : Flds K) (A : Fields) (m : TMon K) (F : File K) : (m.writeImplLeft g f A F).1 = m := by
  unfold TMon.writeImplLeft
  split
  · rfl
  · split
    · rfl
    · split <;> rfl

theorem TMon.writeHLeft_ready {g : Grid K} {f : Flds K} (hf : f.Dims g.Nx g.Ny) {m : TMon K} (hm : m.Ready g) (F : File K) :
    (m.writeHLeft g f F).1.Ready g := by
  unfold TMon.writeHLeft thenLeft
  split
  · rename_i r e
    rw [TMon.writeImplLeft_monitor]
    exact (TMon.writeImpl_safe hf _ hm F).2 r.1 r.2 e
  · rw [TMon.writeImplLeft_monitor]; exact hm

theorem TMon.writeLeft_ready {g : Grid K} {f : Flds K} (hf : f.Dims g.Nx g.Ny) {m : TMon K} (hm : m.Ready g) (F : File K) :
    (m.writeLeft g f F).1.Ready g := by
  unfold TMon.writeLeft
  split
  · rw [TMon.writeImplLeft_monitor]; exact hm
  · exact TMon.writeHLeft_ready hf hm F
  · unfold thenLeft
    split
    · rename_i r e
      exact TMon.writeHLeft_ready hf ((TMon.writeImpl_safe hf _ hm F).2 r.1 r.2 e) _
    · rw [TMon.writeImplLeft_monitor]; exact hm
  · rw [TMon.writeImplLeft_monitor]; exact hm

theorem writeReadyLeft_ready {g : Grid K} {f : Flds K} (hf : f.Dims g.Nx g.Ny) : ∀ (l : List (TMon K)) (F : File K), (∀ m ∈ l, m.Ready g) →
    ∀ m ∈ (writeReadyLeft g f l F).1, m.Ready g
  | [], F, _ => by simp [writeReadyLeft]
  | m :: l, F, h => by
    intro x hx
    unfold writeReadyLeft at hx
    split at hx
    · rename_i m1 F1 e
      rcases List.mem_cons.mp hx with rfl | hx
      · exact (TMon.writeIfReady_safe hf (h m (by simp)) F).2 _ _ e
      · exact writeReadyLeft_ready hf l F1 (fun m hm => h m (by simp [hm])) x hx
    · rcases List.mem_cons.mp hx with rfl | hx
      · have hm := h m (by simp)
        obtain ⟨b, e, h1, h2⟩ := Every.check_ready hm.every
        unfold TMon.writeIfReadyLeft
        rw [h1]
        have hm' : ({ m with outFreq := e } : TMon K).Ready g := ⟨hm.shape, h2⟩
        dsimp only
        split
        · exact TMon.writeLeft_ready hf hm' F
        · exact hm'
      · exact h x (by simp [hx])

theorem TMon.setF_noUB (F : File K) (m : TMon K) : NoUB (m.setF F) := by
  unfold TMon.setF
  split
  · exact NoUB.exn _
  · exact File.openGroup_noUB _ _

theorem File.writeField_noUB {f : Flds K} {g : Grid K} (hf : f.Dims g.Nx g.Ny) (C : Fields) (F : File K) : NoUB (F.writeField f C) := by
  unfold File.writeField
  refine (Flds.get_noUB hf C).1.bind fun a _ => ?_
  split
  · exact NoUB.pure _
  · exact File.create_noUB _ _ _

/-! ## Whole simulations -/

theorem pulseTry_of_all {g : Grid K} {t : K} : ∀ (l l' : List (Source K)) (f f' : Flds K), pulseAll g t l f = .ok (l', f') →
    pulseTry g t l f = ⟨l', f', none⟩
  | [], l', f, f', h => by cases h; rfl
  | s :: l, l', f, f', h => by
    unfold pulseAll at h
    obtain ⟨f1, h1, h⟩ := (Except.bind_ok ..).mp h
    obtain ⟨⟨l1, f2⟩, h2, h⟩ := (Except.bind_ok ..).mp h
    cases h
    unfold pulseTry
    simp only [h1, pulseTry_of_all l l1 f1 _ h2]

/-- Everything attached to the simulation is inside the domain. -/
structure Sim.Safe (B : Prop) (g : Grid K) (objs : List (Object K)) (s : Sim K) : Prop where
  wf : s.core.WF
  grid : s.core.g = g
  objs : s.objs = objs
  pols : ∀ o ∈ s.objs, s.core.HasPol o
  srcs : ∀ x ∈ s.srcs, Fits g x
  mons : ∀ m ∈ s.mons, m.Ready B g
  tmons : ∀ m ∈ s.tmons, m.Ready g

theorem Sim.Safe.update (now : ℕ → ℝ) {B : Prop} {g : Grid K} (hg : g.Wide) {objs : List (Object K)} {s : Sim K} (h : s.Safe B g objs) :
    (s.update now).Good B (Sim.Safe B g objs) := by
  obtain ⟨c, e1, w1, g1, -⟩ := Core.stageE_ok h.wf (by rw [h.grid]; exact hg)
  have gg : c.g = g := g1.trans h.grid
  obtain ⟨srcs', f', e2, d2, -, hs2, -⟩ := pulseAll_ok (g := c.g) c.t s.srcs c.f (by rw [gg]; exact h.srcs) w1.f
  have e3 := pulseTry_of_all _ _ _ _ e2
  have e4 := mapM'_ready_or (step := Monitor.update c.g f' c.t) (Q := Monitor.Ready B g) s.mons (fun m hm => by
    have := Monitor.update_ready (B := B) (g := c.g) d2 c.t (m := m) (by rw [gg]; exact h.mons m hm)
    rwa [gg] at this ⊢)
  have w2 : ({ c with f := f' } : Core K).WF := { w1 with f := d2 }
  obtain ⟨c2, e5, w5, g5, -⟩ := Core.stageH_ok (c := { c with f := f' }) w2 (by rw [show ({ c with f := f' } : Core K).g = g from gg]; exact hg)
  have gg2 : c2.g = g := g5.trans gg
  have p1 : ∀ o ∈ s.objs, c.HasPol o := fun o ho => (h.pols o ho).of_keys (Core.stageE_keys e1)
  have p2 : ∀ o ∈ s.objs, c2.HasPol o := fun o ho => (p1 o ho).of_keys (Core.stageH_keys e5)
  obtain ⟨n6, r6⟩ := writeReady_safe (g := c2.g) (f := c2.f) w5.f s.tmons s.file (by rw [gg2]; exact h.tmons)
  unfold Sim.update
  refine tryM_good (Clocks.begin_noUB _ _ _) ⟨{ h.wf with }, h.grid, h.objs, h.pols, h.srcs, h.mons, h.tmons⟩ fun ck _ => ?_
  refine tryM_good_ok e1 ?_
  rw [e3]
  dsimp only
  refine tryM_good_ok (b := ()) rfl ?_
  have hs2' : ∀ x ∈ srcs', Fits g x := by rw [← gg]; exact hs2
  have q1 : ∀ ck : Clocks, ({ s with clocks := ck, core := { c with f := f' }, srcs := srcs' } : Sim K).Safe B g objs := fun ck =>
    ⟨w2, gg, h.objs, p1, hs2', h.mons, h.tmons⟩
  refine tryM_good (Clocks.stop_noUB _ _ _) (q1 _) fun ck2 _ => ?_
  refine tryM_good (Clocks.begin_noUB _ _ _) (q1 _) fun ck3 _ => ?_
  refine tryM_good_or e4 fun mons r4 => ?_
  have q2 : ∀ ck : Clocks, ({ s with clocks := ck, core := { c with f := f' }, srcs := srcs', mons := mons } : Sim K).Safe B g objs := fun ck =>
    ⟨w2, gg, h.objs, p1, hs2', r4, h.tmons⟩
  refine tryM_good (Clocks.stop_noUB _ _ _) (q2 _) fun ck4 _ => ?_
  refine tryM_good (Clocks.begin_noUB _ _ _) (q2 _) fun ck5 _ => ?_
  refine tryM_good_ok e5 ?_
  have q3 : ∀ ck : Clocks, ({ s with clocks := ck, core := c2, srcs := srcs', mons := mons } : Sim K).Safe B g objs := fun ck =>
    ⟨w5, gg2, h.objs, p2, hs2', r4, h.tmons⟩
  refine tryM_good (Clocks.stop_noUB _ _ _) (q3 _) fun ck6 _ => ?_
  have q4 := writeReadyLeft_ready (g := c2.g) (f := c2.f) w5.f s.tmons s.file (by rw [gg2]; exact h.tmons)
  refine tryM_good n6 ⟨w5, gg2, h.objs, p2, hs2', r4, by rw [← gg2]; exact q4⟩ fun q hq => ?_
  exact ⟨w5, gg2, h.objs, p2, hs2', r4, by rw [← gg2]; exact r6 _ _ hq⟩

theorem Sim.Safe.writeField (now : ℕ → ℝ) {B : Prop} {g : Grid K} {objs : List (Object K)} (C : Fields) {s : Sim K} (h : s.Safe B g objs) :
    (s.writeField now C).Good B (Sim.Safe B g objs) := by
  have q : ∀ (ck : Clocks) (F : File K), ({ s with clocks := ck, file := F } : Sim K).Safe B g objs := fun ck F =>
    ⟨h.wf, h.grid, h.objs, h.pols, h.srcs, h.mons, h.tmons⟩
  unfold Sim.writeField
  refine tryM_good (Clocks.begin_noUB _ _ _) (q _ _) fun ck _ => ?_
  refine tryM_good (File.writeField_noUB h.wf.f _ _) (q _ _) fun F _ => ?_
  refine tryM_good (Clocks.stop_noUB _ _ _) (q _ _) fun ck2 _ => ?_
  exact q _ _

end Qbox
