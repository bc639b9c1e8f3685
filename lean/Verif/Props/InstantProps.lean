import Verif.Props.SurfDomainProps
import Verif.Props.CylFluxProps

/-!
# C38: the electric and the magnetic field are recorded at the same instant

`Field2D::update` calls the monitors after the electric field has been advanced to the time of the update and before the magnetic
field is: the magnetic field found belongs to the instant half way between the previous update and this one, and so does the mean of
the electric fields found at the two updates.
-/

namespace Qbox.Props
open Qbox Scalar Spec

section
variable {K : Type} [Scalar K]

/-- The record of `surf_record`, when every update has a time of its own. -/
theorem averaged_midway : ∀ (ss : List (Snap K)) (t0 : K) (prev : ℤ → K),
    List.IsChain (fun a b => eqb a b = false) (t0 :: ss.map (·.t)) → averaged t0 prev ss = midway prev ss
  | [], _, _, _ => rfl
  | s :: l, t0, prev, h => by
    rw [List.map_cons, List.isChain_cons_cons] at h
    simp only [averaged, midway, h.1, Bool.false_eq_true, if_false, averaged_midway l s.t s.e h.2]

theorem midway_congr (n : ℤ) : ∀ (ss : List (Snap K)) (p p' : ℤ → K), (∀ i, 0 ≤ i → i < n → p i = p' i) →
    List.Forall₂ (fun s s' : Sample K ℤ => s.t = s'.t ∧ ∀ x i, 0 ≤ i → i < n → s.v x i = s'.v x i) (midway p ss) (midway p' ss)
  | [], _, _, _ => .nil
  | s :: l, p, p', h => by
    unfold midway
    exact .cons ⟨rfl, fun x i h0 h1 => by simp only [h i h0 h1]⟩ (midway_congr n l s.e s.e (fun _ _ _ => rfl))

theorem holds_congr {a : Acc K ℤ} {freq : List K} {x : String} {l l' : List (Sample K ℤ)} {n : ℤ} (hp : a.pos = intRange 0 n)
    (h : List.Forall₂ (fun s s' : Sample K ℤ => s.t = s'.t ∧ ∀ x i, 0 ≤ i → i < n → s.v x i = s'.v x i) l l')
    (hl : Holds a freq x l) : Holds a freq x l' := by
  refine ⟨fun p hq k hk => ?_, fun p hq k hk => ?_⟩
  · rw [hl.re p hq k hk]
    rw [hp, mem_intRange] at hq
    exact cosSum_congr _ _ _ (h.imp fun s s' hs => ⟨hs.1, hs.2 x p hq.1 hq.2⟩) _
  · rw [hl.im p hq k hk]
    rw [hp, mem_intRange] at hq
    exact sinSum_congr _ _ _ (h.imp fun s s' hs => ⟨hs.1, hs.2 x p hq.1 hq.2⟩) _

/-- **C38** for surface monitors, partial: `before` is the electric field at the points of the monitor at the update before it was
attached. At every update, at every point and for every recorded component the monitor adds to its sums the field at the instant half
way between that update and the one before it.  Missing: monitors attached while the field at their points is not zero (for which the
claim is false, `C38_late_false`), and updates at the time of the previous one (see C36). -/
theorem C38_surface_partial (g : Grid K) (name : String) (surf : Surf K) (tag : DftTag) (freq : List K) (is : ISurf)
    (hi : g.toGridS surf = .ok is) (n : ℤ) (hn : is.dim.inorm = n) (l : List (Flds K × K)) (ss : List (Snap K)) (before : ℤ → K)
    (h : List.Forall₂ (fun q s => Finds n (surfKeys tag is) (surfReads g surf is q) s) l ss)
    (ht : List.IsChain (fun a b => eqb a b = false) (0 :: l.map Prod.snd)) (hb : ∀ i, 0 ≤ i → i < n → before i = 0) :
    ∃ m1 m, (SurfMon.make name surf tag freq).setF g = .ok m1 ∧ SurfMon.runs g l m1 = .ok m ∧
      ∀ x ∈ surfKeys tag is, ∃ a, m.fourier.get x = .ok a ∧ a.pos = intRange 0 n ∧ Holds a freq x (midway before ss) := by
  obtain ⟨m1, m, h1, h2, -, -, -, -, -, h3⟩ := surf_record g name surf tag freq is hi n hn l ss h
  refine ⟨m1, m, h1, h2, fun x hx => ?_⟩
  obtain ⟨a, a1, a2, a3⟩ := h3 x hx
  have e : ss.map (·.t) = l.map Prod.snd := by
    clear h1 h2 h3 a1 a2 a3 ht
    induction h with
    | nil => rfl
    | cons hq _ ih => simp only [List.map_cons, ih]; rw [← hq.1]; rfl
  rw [averaged_midway ss 0 _ (by rw [e]; exact ht)] at a3
  exact ⟨a, a1, a2, holds_congr a2 (midway_congr n ss _ _ fun i h0 h1 => (hb i h0 h1).symm) a3⟩

/-- **C38** for cylinder monitors, partial in the same way. -/
theorem C38_cylinder_partial (g : Grid K) (name : String) (surf : CylSurf K) (tag : DftTag) (freq : List K) (n : ℤ)
    (hn : ceilI (ofInt 2 * Scalar.pi * surf.radius / g.dx) = n) (l : List (Flds K × K)) (ss : List (Snap K)) (before : ℤ → K)
    (h : List.Forall₂ (fun q s => Finds n (cylKeys tag) (cylReads g surf n q) s) l ss)
    (ht : List.IsChain (fun a b => eqb a b = false) (0 :: l.map Prod.snd)) (hb : ∀ i, 0 ≤ i → i < n → before i = 0) :
    ∃ m, CylMon.runs g l ((CylMon.make name surf tag freq).setF g) = .ok m ∧
      ∀ x ∈ cylKeys tag, ∃ a, m.fourier.get x = .ok a ∧ a.pos = intRange 0 n ∧ Holds a freq x (midway before ss) := by
  obtain ⟨m, h2, -, -, -, -, -, h3⟩ := cyl_record g name surf tag freq n hn l ss h
  refine ⟨m, h2, fun x hx => ?_⟩
  obtain ⟨a, a1, a2, a3⟩ := h3 x hx
  have e : ss.map (·.t) = l.map Prod.snd := by
    clear h2 h3 a1 a2 a3 ht
    induction h with
    | nil => rfl
    | cons hq _ ih => simp only [List.map_cons, ih]; rw [← hq.1]; rfl
  rw [averaged_midway ss 0 _ (by rw [e]; exact ht)] at a3
  exact ⟨a, a1, a2, holds_congr a2 (midway_congr n ss _ _ fun i h0 h1 => (hb i h0 h1).symm) a3⟩

end

theorem unitGrid_mid : unitGrid.toGrid (⟨5, 37 / 5⟩ : V2 ℝ) = ⟨5, 7⟩ := by
  have h1 := congrArg V2.x unitGrid_five
  have h2 := congrArg V2.y unitGrid_seven
  exact V2.ext h1 h2

/-- A monitor line of two cells on the unit grid. -/
theorem unit_line : ∃ s is, Surf.make (⟨5, 5⟩ : V2 ℝ) ⟨5, 37 / 5⟩ .Positive = .ok s ∧ unitGrid.toGridS s = .ok is ∧ is.dim.inorm = 2 ∧
    ∀ t, Finds 2 (surfKeys .all is) (surfReads unitGrid s is (oneFlds, t)) (uniformSnap 1 0 0 t) := by
  obtain ⟨s, hs, -⟩ := C05_frame ⟨5, 5⟩ ⟨5, 37 / 5⟩ .Positive (Or.inl ⟨rfl, by norm_num⟩)
  have hne : unitGrid.toGrid (⟨5, 5⟩ : V2 ℝ) ≠ unitGrid.toGrid ⟨5, 37 / 5⟩ := by
    rw [unitGrid_five, unitGrid_mid]; simp
  obtain ⟨is, hi, k2, -, -⟩ := toGridS_make unitGrid _ _ _ s hs hne
  rw [unitGrid_five, unitGrid_mid] at k2
  refine ⟨s, is, hs, hi, by rw [k2]; norm_num, fun t => ?_⟩
  obtain ⟨r, hr⟩ := C14_surface_monitor unitGrid (by simp [unitGrid]) oneFlds oneFlds_dims _ _ _ s hs hne
    (by rw [unitGrid_five]; norm_num [InnerNode, unitGrid]) (by rw [unitGrid_mid]; norm_num [InnerNode, unitGrid]) is hi .all t
  have hc : (cells unitGrid ⟨5, 5⟩ ⟨5, 37 / 5⟩ : ℤ) = 2 := by
    simp only [cells, unitGrid_five, unitGrid_mid]; norm_num
  rw [hc] at hr
  exact uniform_finds unitGrid s is _ _ (oneFlds, t) r 1 0 0 (fun _ _ _ => rfl) (fun _ _ _ => rfl) (fun _ _ _ => rfl) hr

/-- the hypotheses of `C38_surface_partial` are met by two updates at the times 1 and 2 -/
example : ∃ s is, unitGrid.toGridS s = .ok is ∧ is.dim.inorm = 2 ∧
    List.Forall₂ (fun q r => Finds 2 (surfKeys .all is) (surfReads unitGrid s is q) r) [(oneFlds, 1), (oneFlds, 2)]
      [uniformSnap 1 0 0 1, uniformSnap 1 0 0 2] ∧
    List.IsChain (fun a b : ℝ => eqb a b = false) (0 :: [(oneFlds, (1 : ℝ)), (oneFlds, 2)].map Prod.snd) := by
  obtain ⟨s, is, -, h2, h3, h4⟩ := unit_line
  exact ⟨s, is, h2, h3, .cons (h4 1) (.cons (h4 2) .nil), by simp⟩

/-- **C38 is false** for a monitor attached while the field at its points is not zero: in a field that is 1 at the update before the
monitor was attached and 1 at the first update it sees, the mean is 1, and the monitor records 1/2. -/
theorem C38_late_false : ∃ s is m1 m a, Surf.make (⟨5, 5⟩ : V2 ℝ) ⟨5, 37 / 5⟩ .Positive = .ok s ∧ unitGrid.toGridS s = .ok is ∧
    Finds 2 (surfKeys .all is) (surfReads unitGrid s is (oneFlds, 1)) (uniformSnap 1 0 0 1) ∧
    (SurfMon.make "late" s .all [0]).setF unitGrid = .ok m1 ∧ SurfMon.runs unitGrid [(oneFlds, 1)] m1 = .ok m ∧
    m.fourier.get "Ez" = .ok a ∧ a.re 0 0 = 1 / 2 ∧ cosSum 0 "Ez" (0 : ℤ) 0 (midway (fun _ => 1) [uniformSnap 1 0 0 1]) = (1 : ℝ) := by
  obtain ⟨s, is, hs, hi, hn, hf⟩ := unit_line
  obtain ⟨m1, m, h1, h2, h3⟩ := C38_surface_partial unitGrid "late" s .all [0] is hi 2 hn [(oneFlds, 1)] [uniformSnap 1 0 0 1] (fun _ => 0)
    (.cons (hf 1) .nil) (by simp) (fun _ _ _ => rfl)
  obtain ⟨a, a1, a2, a3⟩ := h3 "Ez" (by simp [surfKeys])
  refine ⟨s, is, m1, m, a, hs, hi, hf 1, h1, h2, a1, ?_, ?_⟩
  · have := a3.re 0 (by rw [a2, mem_intRange]; omega) 0 (by simp)
    simp only [Nat.cast_zero] at this
    rw [this]
    simp [cosSum, midway, uniformSnap]
  · simp [cosSum, midway, uniformSnap]

end Qbox.Props
