import Verif.Lemmas.DftSum

/-! # Components and positions of a running transform do not change -/

namespace Qbox
open Scalar Spec

variable {K : Type} [Scalar K]

/-- What the transform is made of: components and positions. -/
def Dft.layout {P : Type} (d : Dft K P) : List (String × List P) := d.acc.map fun a => (a.1, a.2.pos)

section
variable {P σ : Type} [DecidableEq P]

theorem points_pos {freq : List K} {t : K} {g : P → σ → M (K × σ)} : ∀ (l : List P) (s s' : Acc K P × σ),
    forList l s (accPoint freq t g) = .ok s' → s'.1.pos = s.1.pos
  | [], s, s', h => by cases h; rfl
  | p :: l, s, s', h => by
    rw [forList_cons] at h
    obtain ⟨s1, h1, h⟩ := (Except.bind_ok ..).mp h
    rw [points_pos l s1 s' h]
    unfold accPoint at h1
    obtain ⟨q, -, h1⟩ := (Except.bind_ok ..).mp h1
    cases h1; rfl

theorem accLoop_layout {freq : List K} {t : K} {g : String → P → σ → M (K × σ)} : ∀ (l : List (String × Acc K P)) (m : σ)
    (r : List (String × Acc K P) × σ), accLoop freq t g l m = .ok r → r.1.map (fun a => (a.1, a.2.pos)) = l.map (fun a => (a.1, a.2.pos))
  | [], m, r, h => by cases h; rfl
  | (n, a) :: l, m, r, h => by
    unfold accLoop at h
    obtain ⟨⟨a1, m1⟩, h1, h⟩ := (Except.bind_ok ..).mp h
    obtain ⟨⟨l1, m2⟩, h2, h⟩ := (Except.bind_ok ..).mp h
    cases h
    have := points_pos _ _ _ h1
    have h3 := accLoop_layout l m1 _ h2
    simp only at this h3
    simp [this, h3]

theorem Dft.update_layout {d : Dft K P} {g : String → P → σ → M (K × σ)} {t : K} {m : σ} {r : Dft K P × σ} (h : d.update g t m = .ok r) :
    r.1.layout = d.layout ∧ r.1.freq = d.freq := by
  unfold Dft.update at h
  split at h
  · cases h; exact ⟨rfl, rfl⟩
  · obtain ⟨⟨l, m1⟩, h1, h⟩ := (Except.bind_ok ..).mp h
    cases h
    exact ⟨accLoop_layout _ _ _ h1, rfl⟩

end

theorem accFind_of_mem {P : Type} {n : String} {a : Acc K P} : ∀ {l : List (String × Acc K P)}, (l.map Prod.fst).Nodup → (n, a) ∈ l →
    accFind n l = some a
  | [], _, h => by simp at h
  | (m, b) :: l, hn, h => by
    simp only [List.map_cons, List.nodup_cons] at hn
    unfold accFind
    rcases List.mem_cons.mp h with h | h
    · cases h; rw [if_pos rfl]
    · rw [if_neg, accFind_of_mem hn.2 h]
      intro e
      exact hn.1 (by rw [e]; exact List.mem_map_of_mem (f := Prod.fst) h)

/-- Two transforms of the same components, positions and frequencies, the components distinct. -/
theorem like_of_layout {P : Type} {d o : Dft K P} (hf : d.freq.length = o.freq.length) (hl : d.layout = o.layout) (hn : (o.acc.map Prod.fst).Nodup) :
    Like d o := by
  refine ⟨hf, fun q hq => ?_⟩
  have : (q.1, q.2.pos) ∈ o.layout := by rw [← hl]; exact List.mem_map_of_mem (f := fun a => (a.1, a.2.pos)) hq
  obtain ⟨⟨n, b⟩, h1, h2⟩ := List.mem_map.mp this
  obtain ⟨h3, h4⟩ := Prod.mk.inj h2
  simp only at h3 h4
  exact ⟨b, by rw [← h3]; exact accFind_of_mem hn h1, h4.symm⟩

end Qbox
