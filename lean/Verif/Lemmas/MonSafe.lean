import Verif.Lemmas.SimKeep

/-! # Monitors on surfaces parallel to an axis throw nothing -/

namespace Qbox
open Scalar

variable {K : Type} [Scalar K] {P : String → Prop}

/-- The surface is parallel to an axis: what the constructor of `surface` makes sure of. -/
def Surf.Aligned (s : Surf K) : Prop := s.a.x = s.b.x ∨ s.a.y = s.b.y

def SurfMon.Aligned (m : SurfMon K) : Prop := m.surf.Aligned

/-- The surfaces of the monitor are parallel to an axis. -/
def Monitor.Aligned : Monitor K → Prop
  | .surf m => m.Aligned
  | .box m => ∀ s ∈ m.faces, s.Aligned
  | _ => True

theorem Throws.isurfAligned {a b : V2 ℤ} (h : a.x = b.x ∨ a.y = b.y) (sg : Sgn) : Throws P (ISurf.make a b sg) := by
  have h' : (a - b).icabs.x = 0 ∨ (a - b).icabs.y = 0 := by
    rcases h with h | h
    · left; show |a.x - b.x| = 0; rw [h]; simp
    · right; show |a.y - b.y| = 0; rw [h]; simp
  unfold ISurf.make
  dsimp only
  by_cases h1 : (a - b).icabs.x = 0
  · rw [if_pos h1]; simp only [Except.ok_bind]; split <;> first | exact Throws.ok _ | exact Throws.ub _
  · rw [if_neg h1, if_pos (h'.resolve_left h1)]; simp only [Except.ok_bind]; split <;> first | exact Throws.ok _ | exact Throws.ub _

theorem Throws.toGridS (g : Grid K) {s : Surf K} (h : s.Aligned) : Throws P (g.toGridS s) := by
  unfold Grid.toGridS
  refine Throws.isurfAligned ?_ _
  rcases h with h | h
  · left; unfold Grid.toGrid; simp only [V2.sdiv]; rw [h]
  · right; unfold Grid.toGrid; simp only [V2.sdiv]; rw [h]

theorem Throws.interpComp (g : Grid K) (f : Flds K) {C : Fields} (h : C = .Ez ∨ C = .Hx ∨ C = .Hy) (p : V2 K) : Throws P (f.interpolate g C p) := by
  unfold Flds.interpolate bilinear
  refine Throws.bind ?_ fun _ => ?_
  · rcases h with rfl | rfl | rfl <;> exact Throws.ok _
  · throws_tac

theorem Throws.surfMonAligned (g : Grid K) (f : Flds K) (t : K) {m : SurfMon K} (h : m.Aligned) : Throws P (m.update g f t) := by
  unfold SurfMon.update
  refine (Throws.toGridS g h).bind fun is => Throws.bind (Throws.dft _ (fun c i p => ?_) _ _) fun _ => Throws.pure _
  have := Throws.interpComp (P := P) g f (C := .Ez) (by simp) (surfPoint g m.surf is i)
  have := Throws.interpComp (P := P) g f (C := .Hx) (by simp) (surfPoint g m.surf is i)
  have := Throws.interpComp (P := P) g f (C := .Hy) (by simp) (surfPoint g m.surf is i)
  unfold surfSample; throws_tac

theorem Throws.cylMonAny (g : Grid K) (f : Flds K) (t : K) (m : CylMon K) : Throws P (m.update g f t) := by
  unfold CylMon.update
  refine Throws.bind (Throws.dft _ (fun c i p => ?_) _ _) fun _ => Throws.pure _
  have := Throws.interpComp (P := P) g f (C := .Ez) (by simp) (m.surf.position (cylTheta m.length i))
  have := Throws.interpComp (P := P) g f (C := .Hx) (by simp) (m.surf.position (cylTheta m.length i))
  have := Throws.interpComp (P := P) g f (C := .Hy) (by simp) (m.surf.position (cylTheta m.length i))
  unfold cylSample; throws_tac

theorem Throws.mapMem {α : Type} {step : α → M α} : ∀ (l : List α), (∀ a ∈ l, Throws P (step a)) → Throws P (Qbox.mapM' step l)
  | [], _ => Throws.ok _
  | a :: l, h => by
    unfold Qbox.mapM'
    exact (h a (by simp)).bind fun _ => (Throws.mapMem l fun b hb => h b (by simp [hb])).bind fun _ => Throws.pure _

/-- Updating a monitor throws nothing. -/
theorem Throws.monitorAligned (g : Grid K) (f : Flds K) (t : K) {m : Monitor K} (h : m.Aligned) : Throws P (m.update g f t) := by
  cases m <;> unfold Monitor.update
  · exact (Throws.surfMonAligned _ _ _ h).bind fun _ => Throws.pure _
  · refine Throws.bind ?_ fun _ => Throws.pure _
    unfold BoxMon.update
    exact (Throws.mapMem _ fun s hs => Throws.surfMonAligned _ _ _ (h s hs)).bind fun _ => Throws.pure _
  · exact (Throws.volMon _ _ _ _).bind fun _ => Throws.pure _
  · exact (Throws.pointMon _ _ _).bind fun _ => Throws.pure _
  · exact (Throws.cylMonAny _ _ _ _).bind fun _ => Throws.pure _

/-! ## The surfaces stay what they are -/

theorem mapM'_mem {α : Type} {step : α → M α} {Q : α → Prop} (h : ∀ a a', Q a → step a = .ok a' → Q a') : ∀ {l l' : List α},
    (∀ a ∈ l, Q a) → mapM' step l = .ok l' → ∀ a ∈ l', Q a
  | [], l', _, he => by cases he; simp
  | a :: l, l', hq, he => by
    unfold mapM' at he
    obtain ⟨a', h1, he⟩ := (Except.bind_ok ..).mp he
    obtain ⟨k, h2, he⟩ := (Except.bind_ok ..).mp he
    cases he
    intro b hb
    rcases List.mem_cons.mp hb with rfl | hb
    · exact h a _ (hq a (by simp)) h1
    · exact mapM'_mem h (fun c hc => hq c (by simp [hc])) h2 b hb

theorem SurfMon.update_surf {g : Grid K} {f : Flds K} {t : K} {m m' : SurfMon K} (h : m.update g f t = .ok m') :
    m'.surf = m.surf ∧ m'.name = m.name ∧ m'.tag = m.tag ∧ m'.length = m.length := by
  unfold SurfMon.update at h
  obtain ⟨is, -, h⟩ := (Except.bind_ok ..).mp h
  obtain ⟨q, -, h⟩ := (Except.bind_ok ..).mp h
  cases h; exact ⟨rfl, rfl, rfl, rfl⟩

theorem SurfMon.setF_surf {g : Grid K} {m m' : SurfMon K} (h : m.setF g = .ok m') : m'.surf = m.surf := by
  unfold SurfMon.setF at h
  obtain ⟨is, -, h⟩ := (Except.bind_ok ..).mp h
  cases h; rfl

theorem SurfMon.sub_surf {m m' o : SurfMon K} (h : m.sub o = .ok m') : m'.surf = m.surf := by
  unfold SurfMon.sub at h
  obtain ⟨is, -, h⟩ := (Except.bind_ok ..).mp h
  cases h; rfl

theorem Monitor.Aligned.update {g : Grid K} {f : Flds K} {t : K} {m m' : Monitor K} (h : m.Aligned) (he : m.update g f t = .ok m') : m'.Aligned := by
  cases m with
  | surf m =>
    obtain ⟨k, h1, he⟩ := (Except.bind_ok ..).mp he
    cases he
    show (k.surf).Aligned
    rw [(SurfMon.update_surf h1).1]; exact h
  | box m =>
    obtain ⟨k, h1, he⟩ := (Except.bind_ok ..).mp he
    cases he
    unfold BoxMon.update at h1
    obtain ⟨l, h2, h1⟩ := (Except.bind_ok ..).mp h1
    cases h1
    exact mapM'_mem (Q := SurfMon.Aligned) (fun a a' ha e => by show (a'.surf).Aligned; rw [(SurfMon.update_surf e).1]; exact ha) h h2
  | vol m => obtain ⟨k, h1, he⟩ := (Except.bind_ok ..).mp he; cases he; trivial
  | point m => obtain ⟨k, h1, he⟩ := (Except.bind_ok ..).mp he; cases he; trivial
  | cyl m => obtain ⟨k, h1, he⟩ := (Except.bind_ok ..).mp he; cases he; trivial

theorem Monitor.Aligned.setF {g : Grid K} {m m' : Monitor K} (h : m.Aligned) (he : m.setF g = .ok m') : m'.Aligned := by
  cases m with
  | surf m =>
    obtain ⟨k, h1, he⟩ := (Except.bind_ok ..).mp he
    cases he
    show (k.surf).Aligned
    rw [SurfMon.setF_surf h1]; exact h
  | box m =>
    obtain ⟨k, h1, he⟩ := (Except.bind_ok ..).mp he
    cases he
    unfold BoxMon.setF at h1
    obtain ⟨l, h2, h1⟩ := (Except.bind_ok ..).mp h1
    cases h1
    exact mapM'_mem (Q := SurfMon.Aligned) (fun a a' ha e => by show (a'.surf).Aligned; rw [SurfMon.setF_surf e]; exact ha) h h2
  | vol m => cases he; trivial
  | point m => cases he; trivial
  | cyl m => cases he; trivial

theorem subFaces_aligned : ∀ {l k l' : List (SurfMon K)}, (∀ s ∈ l, s.Aligned) → subFaces l k = .ok l' → ∀ s ∈ l', s.Aligned
  | [], _, l', _, he => by simp only [subFaces] at he; cases he; simp
  | _ :: _, [], l', h, he => by simp only [subFaces] at he; cases he; exact h
  | m :: l, o :: k, l', h, he => by
    unfold subFaces at he
    obtain ⟨a, h1, he⟩ := (Except.bind_ok ..).mp he
    obtain ⟨b, h2, he⟩ := (Except.bind_ok ..).mp he
    cases he
    intro s hs
    rcases List.mem_cons.mp hs with rfl | hs
    · show (s.surf).Aligned; rw [SurfMon.sub_surf h1]; exact h m (by simp)
    · exact subFaces_aligned (fun c hc => h c (by simp [hc])) h2 s hs

theorem subFacesLeft_aligned : ∀ {l k : List (SurfMon K)}, (∀ s ∈ l, s.Aligned) → ∀ s ∈ subFacesLeft l k, s.Aligned
  | [], _, _ => by simp [subFacesLeft]
  | _ :: _, [], h => by simpa [subFacesLeft] using h
  | m :: l, o :: k, h => by
    intro s hs
    unfold subFacesLeft at hs
    split at hs
    · rename_i m' e
      rcases List.mem_cons.mp hs with rfl | hs
      · show (s.surf).Aligned; rw [SurfMon.sub_surf e]; exact h m (by simp)
      · exact subFacesLeft_aligned (fun c hc => h c (by simp [hc])) s hs
    · rcases List.mem_cons.mp hs with rfl | hs
      · exact h m (by simp)
      · exact h s (by simp [hs])

theorem Monitor.Aligned.sub {m m' o : Monitor K} (h : m.Aligned) (he : m.sub o = .ok m') : m'.Aligned := by
  unfold Monitor.sub at he
  split at he
  case h_10 => cases he; exact h
  case h_1 =>
    obtain ⟨k, h1, he⟩ := (Except.bind_ok ..).mp he
    cases he
    show (k.surf).Aligned
    rw [SurfMon.sub_surf h1]; exact h
  case h_4 =>
    obtain ⟨k, h1, he⟩ := (Except.bind_ok ..).mp he
    cases he
    unfold BoxMon.sub at h1
    obtain ⟨l, h2, h1⟩ := (Except.bind_ok ..).mp h1
    cases h1
    exact subFaces_aligned h h2
  all_goals
    obtain ⟨k, h1, he⟩ := (Except.bind_ok ..).mp he
    cases he
    first | trivial | exact h

theorem Monitor.Aligned.subLeft {m o : Monitor K} (h : m.Aligned) : (m.subLeft o).Aligned := by
  unfold Monitor.subLeft
  split
  case h_4 => exact subFacesLeft_aligned h
  all_goals first | trivial | exact h

end Qbox
