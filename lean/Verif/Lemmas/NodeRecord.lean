import Verif.Lemmas.SurfRecord
import Verif.Lemmas.NoUB

/-! # Histories of volume and point monitors -/

namespace Qbox
open Scalar Spec

set_option linter.unusedSectionVars false

variable {K : Type} [Scalar K]

/-- The components at the node `(x, y)` by name. -/
def nodeVal (f : Flds K) (n : String) (x y : ℤ) : K :=
  if n = "Ez" then f.Ez.val x y else if n = "Hx" then f.Hx.val x y else f.Hy.val x y

/-- Updates of a volume monitor, one after the other. -/
def VolMon.runs (g : Grid K) : List (Flds K × K) → VolMon K → M (VolMon K)
  | [], m => .ok m
  | (f, t) :: l, m => do
    let m ← m.update g f t
    VolMon.runs g l m

/-- The sample of a volume monitor with lower corner `a`. -/
def volSnap (a : V2 ℤ) (q : Flds K × K) : Sample K (ℤ × ℤ) := ⟨q.2, fun n p => nodeVal q.1 n (a.x + p.1) (a.y + p.2)⟩

theorem VolMon.update_feed (g : Grid K) (q : Flds K × K) (hf : q.1.Dims g.Nx g.Ny) (m : VolMon K) (hm : m.Ready g)
    (hn : ∀ a ∈ m.fourier.acc, a.2.pos.Nodup) :
    m.update g q.1 q.2 = (feed m.fourier [volSnap (g.toGridV m.vol).a q]).map fun d => { m with fourier := d } := by
  unfold VolMon.update
  simp only [feed]
  by_cases ht : eqb m.fourier.t q.2 = true
  · unfold Dft.update
    simp only [volSnap, ht, if_true, Except.ok_bind]
    rfl
  · have ht' : eqb m.fourier.t q.2 = false := by simpa using ht
    obtain ⟨u, e, -⟩ := dftUpdate_sum m.fourier (volSample q.1 (g.toGridV m.vol)) q.2 (volSnap (g.toGridV m.vol).a q).v
      (fun rest _ => ∀ x p, (x, p) ∈ rest → (x, p) ∈ sampleList m.fourier.acc) (by
        intro n p rest u hq
        have hmem := hq n p (by simp)
        obtain ⟨a, ha, rfl, hp⟩ := mem_sampleList.mp hmem
        obtain ⟨hk, hpos⟩ := hm.keys (a.1, a.2.pos) (List.mem_map.mpr ⟨a, ha, rfl⟩)
        obtain ⟨i0, i1, j0, j1⟩ := hpos p hp
        refine ⟨(), ?_, fun x p h => hq x p (by simp [h])⟩
        have r1 : ∀ {T : Tensor K}, T.Dim g.Nx g.Ny → T.rd ((g.toGridV m.vol).a + ⟨p.1, p.2⟩ : V2 ℤ).x ((g.toGridV m.vol).a + ⟨p.1, p.2⟩ : V2 ℤ).y =
            .ok (T.val ((g.toGridV m.vol).a.x + p.1) ((g.toGridV m.vol).a.y + p.2)) := by
          intro T hT
          obtain ⟨e1, e2⟩ := hT
          exact Tensor.rd_in i0 (by rw [e1]; exact i1) j0 (by rw [e2]; exact j1)
        unfold volSample volSnap nodeVal
        replace hk : a.1 = "Ez" ∨ a.1 = "Hx" ∨ a.1 = "Hy" := hk
        rcases hk with hk | hk | hk
        · simp only [hk, if_true, r1 hf.Ez, Except.ok_bind, Except.pure_eq]
        · have c1 : "Hx" ≠ "Ez" := by decide
          simp only [hk, if_true, if_neg c1, r1 hf.Hx, Except.ok_bind, Except.pure_eq]
        · have c1 : "Hy" ≠ "Ez" := by decide
          have c2 : "Hy" ≠ "Hx" := by decide
          simp only [hk, if_true, if_neg c1, if_neg c2, r1 hf.Hy, Except.ok_bind, Except.pure_eq]) () hn ht' (fun _ _ h => h)
    rw [e]
    have := dftUpdate_pure m.fourier q.2 (volSnap (g.toGridV m.vol).a q).v hn ht'
    change _ = Except.map _ (m.fourier.update (fun n p (w : Unit) => .ok ((volSnap (g.toGridV m.vol).a q).v n p, w)) q.2 () >>= _)
    rw [this]
    rfl

theorem feed_nodup {P : Type} [DecidableEq P] {d d' : Dft K P} {l : List (Sample K P)} (h : feed d l = .ok d') (hn : ∀ a ∈ d.acc, a.2.pos.Nodup) :
    ∀ a ∈ d'.acc, a.2.pos.Nodup := by
  obtain ⟨d2, e, -, -, h2, -⟩ := feed_sum l d hn
  rw [h] at e; cases e; exact h2

theorem VolMon.runs_feed (g : Grid K) : ∀ (l : List (Flds K × K)) (_ : ∀ q ∈ l, q.1.Dims g.Nx g.Ny) (m : VolMon K), m.Ready g →
    (∀ a ∈ m.fourier.acc, a.2.pos.Nodup) →
    VolMon.runs g l m = (feed m.fourier (l.map (volSnap (g.toGridV m.vol).a))).map fun d => { m with fourier := d }
  | [], _, m, _, _ => rfl
  | q :: l, hl, m, hm, hn => by
    obtain ⟨m1, e1, r1⟩ := VolMon.update_ready (hl q (by simp)) q.2 hm
    have e2 := VolMon.update_feed g q (hl q (by simp)) m hm hn
    rw [e1] at e2
    simp only [VolMon.runs, e1, Except.ok_bind]
    cases hf : feed m.fourier [volSnap (g.toGridV m.vol).a q] with
    | error e => rw [hf] at e2; cases e2
    | ok d =>
      rw [hf] at e2
      obtain rfl : m1 = { m with fourier := d } := Except.ok.inj e2
      rw [VolMon.runs_feed g l (fun q hq => hl q (by simp [hq])) _ r1 (feed_nodup hf hn)]
      simp only [List.map_cons, feed] at hf ⊢
      obtain ⟨x, hx, hx2⟩ := (Except.bind_ok ..).mp hf
      rw [hx, Except.ok_bind]
      obtain rfl : x.1 = d := Except.ok.inj hx2
      rfl

theorem nodup_pos2 (n m : ℤ) : (pos2 n m).Nodup := by
  unfold pos2
  refine List.nodup_flatMap.mpr ⟨fun i _ => (nodup_intRange 0 m).map fun a b h => by simpa using h, ?_⟩
  refine (nodup_intRange 0 n).pairwise_of_forall_ne ?_
  intro i _ j _ hij p hp hq
  simp only [List.mem_map] at hp hq
  obtain ⟨a, -, rfl⟩ := hp
  obtain ⟨b, -, h⟩ := hq
  exact hij (Prod.mk.inj h).1.symm

/-- What a blank transform holds after being fed. -/
theorem feed_holds {P : Type} [DecidableEq P] (freq : List K) (pos : List P) (hp : pos.Nodup) (names : List String)
    (hk : names ∈ ([["Ez"], ["Hx"], ["Hy"], ["Ez", "Hx", "Hy"],
    ["Ez", "Hy"], ["Ez", "Hx"], ["Ez", "Hp", "Hr"], ["Ez", "Hp"], []] : List (List String))) (l : List (Sample K P)) :
    ∃ d, feed ((Dft.make freq : Dft K P).addAll pos names) l = .ok d ∧ d.freq = freq ∧
      ∀ x ∈ names, ∃ a, d.get x = .ok a ∧ a.pos = pos ∧ Holds a freq x (counted 0 l) := by
  obtain ⟨h1, h2, h3, h4⟩ := addAll_acc freq pos names hk
  obtain ⟨d, e1, e2, -, -, e5⟩ := feed_sum l ((Dft.make freq : Dft K P).addAll pos names) (by
    intro a ha
    rw [h1, List.mem_map] at ha
    obtain ⟨n, -, rfl⟩ := ha
    exact hp)
  refine ⟨d, e1, e2.trans h2, fun x hx => ?_⟩
  obtain ⟨a, a1, a2, a3⟩ := e5 x ⟨pos, fun _ _ => 0, fun _ _ => 0⟩ (by rw [h1]; exact accFind_blank hx)
  rw [h2, h3] at a3
  refine ⟨a, by rw [Dft.get, a1], a2, ⟨?_, ?_⟩⟩
  · intro p hp k hk
    rw [a2] at hp
    exact (a3 p hp k hk).1
  · intro p hp k hk
    rw [a2] at hp
    exact (a3 p hp k hk).2

/-- Updates of a point monitor whose closures read the node `node`. -/
def PointMon.runsAt (node : V2 ℤ) : List (Flds K × K) → PointMon K → M (PointMon K)
  | [], m => .ok m
  | (f, t) :: l, m => do
    let m ← m.updateWith f t (.ok node)
    PointMon.runsAt node l m

end Qbox
