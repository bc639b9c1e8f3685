import Verif.Props.DftProps
import Verif.Props.TfsfProps

/-!
# C52: spectrum of the incident wave
-/

namespace Qbox.Props
open Qbox Scalar Spec

set_option linter.unusedSectionVars false

/-! ## Feeding one more sample -/

section
variable {K P : Type} [Scalar K] [DecidableEq P]

theorem feed_snoc (s : Sample K P) : ∀ (l : List (Sample K P)) (d : Dft K P),
    feed d (l ++ [s]) = (feed d l).bind fun d' => feed d' [s]
  | [], d => rfl
  | x :: l, d => by
    simp only [List.cons_append, feed]
    cases h : d.update (fun n p (m : Unit) => .ok (x.v n p, m)) x.t () with
    | error e => rfl
    | ok r => exact feed_snoc s l r.1

/-- The names of the recorded signals. -/
def keys (d : Dft K P) : List String := d.acc.map Prod.fst

theorem accLoop_keys {σ : Type} (freq : List K) (t : K) (g : String → P → σ → M (K × σ)) : ∀ (l : List (String × Acc K P)) (m : σ)
    {r : List (String × Acc K P) × σ}, accLoop freq t g l m = .ok r → r.1.map Prod.fst = l.map Prod.fst
  | [], m, r, h => by cases h; rfl
  | (n, a) :: l, m, r, h => by
    simp only [accLoop, Except.bind_ok, Except.pure_eq] at h
    obtain ⟨x, -, y, h2, h3⟩ := h
    cases h3
    simp only [List.map_cons, accLoop_keys freq t g l _ h2]

theorem update_keys {σ : Type} {d : Dft K P} {g : String → P → σ → M (K × σ)} {t : K} {m : σ} {r : Dft K P × σ}
    (h : d.update g t m = .ok r) : keys r.1 = keys d := by
  unfold Dft.update at h
  split_ifs at h
  · cases h; rfl
  · simp only [Except.bind_ok, Except.pure_eq] at h
    obtain ⟨x, h1, h2⟩ := h
    cases h2
    exact accLoop_keys _ _ _ _ _ h1

theorem feed_keys : ∀ (l : List (Sample K P)) {d d' : Dft K P}, feed d l = .ok d' → keys d' = keys d
  | [], d, d', h => by cases h; rfl
  | s :: l, d, d', h => by
    simp only [feed, Except.bind_ok] at h
    obtain ⟨x, h1, h2⟩ := h
    rw [feed_keys l h2, update_keys h1]

theorem accAdd_keys {n : String} {pos : List P} : ∀ (l : List (String × Acc K P)) (x : String),
    x ∈ (accAdd n pos l).map Prod.fst → x = n ∨ x ∈ l.map Prod.fst
  | [], x, h => by left; simpa [accAdd] using h
  | (m, a) :: l, x, h => by
    unfold accAdd at h
    split_ifs at h with c1 c2
    · exact Or.inr (by simpa using h)
    · rw [List.map_cons, List.mem_cons] at h
      exact h
    · rw [List.map_cons, List.mem_cons] at h
      rcases h with h | h
      · exact Or.inr (by rw [List.map_cons, List.mem_cons]; exact Or.inl h)
      · rcases accAdd_keys l x h with h | h
        · exact Or.inl h
        · exact Or.inr (by rw [List.map_cons, List.mem_cons]; exact Or.inr h)

theorem recorder_keys (freq : List K) (pos : List P) (names : List String) : ∀ x ∈ keys (recorder freq names pos), x ∈ names := by
  have key : ∀ (names : List String) (d : Dft K P) (x : String), x ∈ keys (names.foldl (fun d n => d.add n pos) d) →
      x ∈ names ∨ x ∈ keys d := by
    intro names
    induction names with
    | nil => intro d x h; exact Or.inr h
    | cons m names ih =>
      intro d x h
      rcases ih (d.add m pos) x h with h | h
      · exact Or.inl (List.mem_cons_of_mem _ h)
      · rcases accAdd_keys d.acc x h with h | h
        · exact Or.inl (by rw [h]; simp)
        · exact Or.inr h
  intro x h
  rcases key names _ x h with h | h
  · exact h
  · simp [keys, Dft.make] at h

theorem forList_congr_mem {σ ι : Type} {b1 b2 : ι → σ → M σ} : ∀ (l : List ι), (∀ i ∈ l, ∀ s, b1 i s = b2 i s) →
    ∀ s, forList l s b1 = forList l s b2
  | [], _, s => rfl
  | i :: l, h, s => by
    rw [forList_cons, forList_cons, h i (by simp) s]
    cases b2 i s with
    | error e => rfl
    | ok s' => exact forList_congr_mem l (fun j hj => h j (by simp [hj])) s'

theorem accLoop_congr {σ : Type} (freq : List K) (t : K) (g1 g2 : String → P → σ → M (K × σ)) : ∀ (l : List (String × Acc K P)) (m : σ),
    (∀ n ∈ l.map Prod.fst, g1 n = g2 n) → accLoop freq t g1 l m = accLoop freq t g2 l m
  | [], m, _ => rfl
  | (n, a) :: l, m, h => by
    simp only [accLoop]
    rw [h n (by simp)]
    cases forList a.pos (a, m) (accPoint freq t (g2 n)) with
    | error e => rfl
    | ok r =>
      simp only [Except.ok_bind]
      rw [accLoop_congr freq t g1 g2 l r.2 (fun n hn => h n (by simp only [List.map_cons, List.mem_cons]; exact Or.inr hn))]

theorem update_congr {σ : Type} {d : Dft K P} {g1 g2 : String → P → σ → M (K × σ)} (h : ∀ n ∈ keys d, g1 n = g2 n) (t : K) (m : σ) :
    d.update g1 t m = d.update g2 t m := by
  unfold Dft.update
  rw [accLoop_congr d.freq t g1 g2 d.acc m h]

end

/-! ## The spectrum of the incident wave -/

/-- What the line records at its `m+1`-st step. -/
noncomputable def incidentSample (e h : ℕ → ℤ → ℝ) (dt : ℝ) (m : ℕ) : Sample ℝ Unit :=
  ⟨((m : ℝ) + 1) * dt, fun n _ => if n = "E" then (e (m + 1) 2 + e m 2) / 2 else (h m 2 + h m 1) / 2⟩

theorem pulse_records {w : Tfsf ℝ} {s : ℝ → ℝ} {e h : ℕ → ℤ → ℝ} {n : ℕ} (W : LineWave s w.dt w.Nx e h) (I : w.OnWave s e h n)
    {d : Dft ℝ Unit} (hd : w.fourier = some d) (hk : ∀ x ∈ keys d, x = "E" ∨ x = "H") {w' : Tfsf ℝ} (hw : w.pulse = .ok w') :
    ∃ d', w'.fourier = some d' ∧ feed d [incidentSample e h w.dt n] = .ok d' := by
  obtain ⟨tp', fo, htp, hp, hf⟩ := Tfsf.pulse_closed I.shape
  obtain ⟨w1, q1, O1, -⟩ := Tfsf.pulse_wave W I
  have nx := I.shape.nx
  rw [hp] at hw q1
  have ew := Except.ok.inj hw
  have e1 : w1.Ez.val 2 = w.newE 2 := by rw [← Except.ok.inj q1]; rfl
  have n1 : w1.Nx = w.Nx := by rw [← Except.ok.inj q1]
  have eE : w.newE 2 = e (n + 1) 2 := by rw [← e1]; exact O1.Ez 2 (by norm_num) (by rw [n1]; omega)
  obtain ⟨-, s1, -, s2, -⟩ := I.shape
  rw [hd] at hf
  simp only [tfsfFourier] at hf
  rw [Arr.rd_in (by omega) (by simp only [Arr.setv_n]; omega), Arr.rd_in (by omega) (by omega), Arr.rd_in (by omega) (by omega)] at hf
  simp only [Except.ok_bind, Arr.setv_val] at hf
  rw [eE, I.Ez 2 (by omega) (by omega), I.Hx 2 (by omega) (by omega), I.Hx 1 (by omega) (by omega), ofInt_real] at hf
  have hg : ∀ x ∈ keys d, tfsfSample ((e (n + 1) 2 + e n 2) / ((2 : ℤ) : ℝ)) ((h n 2 + h n 1) / ((2 : ℤ) : ℝ)) x =
      fun p (m : Unit) => .ok ((incidentSample e h w.dt n).v x p, m) := by
    intro x hx
    funext p m
    unfold tfsfSample incidentSample
    rcases hk x hx with rfl | rfl
    · simp
    · simp
  rw [update_congr hg] at hf
  have et : w.t + w.dt = (incidentSample e h w.dt n).t := by
    rw [I.t]; simp only [incidentSample]; ring
  rw [et] at hf
  simp only [Except.bind_ok, Except.pure_eq] at hf
  obtain ⟨r, h1, h2⟩ := hf
  refine ⟨r.1, ?_, ?_⟩
  · rw [← ew]; exact (Except.ok.inj h2).symm
  · simp only [feed, h1, Except.ok_bind]

/-- The samples of the first `n` steps. -/
noncomputable def incidentSamples (e h : ℕ → ℤ → ℝ) (dt : ℝ) (n : ℕ) : List (Sample ℝ Unit) := (List.range n).map (incidentSample e h dt)

theorem incidentSamples_apart (e h : ℕ → ℤ → ℝ) {dt : ℝ} (hdt : 0 < dt) (n : ℕ) : Apart 0 (incidentSamples e h dt n) := by
  have key : ∀ (n k : ℕ) (t0 : ℝ), t0 < ((k : ℝ) + 1) * dt → Apart t0 ((List.range' k n).map (incidentSample e h dt)) := by
    intro n
    induction n with
    | zero => intro k t0 _; trivial
    | succ n ih =>
      intro k t0 ht
      refine ⟨ne_of_lt ht, ih (k + 1) _ ?_⟩
      simp only [incidentSample]
      push_cast
      nlinarith
  unfold incidentSamples
  rw [List.range_eq_range']
  exact key n 0 0 (by simpa using hdt)

theorem pulses_records (n : ℕ) : ∀ (m : ℕ) (w : Tfsf ℝ) (s : ℝ → ℝ) (e h : ℕ → ℤ → ℝ) (d0 d : Dft ℝ Unit), LineWave s w.dt w.Nx e h →
    w.OnWave s e h m → w.fourier = some d → (∀ x ∈ keys d0, x = "E" ∨ x = "H") → feed d0 (incidentSamples e h w.dt m) = .ok d →
    ∃ w' d', pulses n w = .ok w' ∧ w'.fourier = some d' ∧ feed d0 (incidentSamples e h w.dt (m + n)) = .ok d' := by
  induction n with
  | zero => intro m w s e h d0 d _ _ hd _ hf; exact ⟨w, d, rfl, hd, hf⟩
  | succ n ih =>
    intro m w s e h d0 d W O hd hk hf
    obtain ⟨w1, hp, O1, B⟩ := Tfsf.pulse_wave W O
    obtain ⟨d1, f1, f2⟩ := pulse_records W O hd (by rw [feed_keys _ hf]; exact hk) hp
    have f3 : feed d0 (incidentSamples e h w.dt (m + 1)) = .ok d1 := by
      unfold incidentSamples at hf ⊢
      rw [List.range_succ, List.map_append, List.map_singleton, feed_snoc, hf]
      exact f2
    obtain ⟨w2, d2, r1, r2, r3⟩ := ih (m + 1) w1 s e h d0 d1 (by rw [B.dt, B.Nx]; exact W) O1 f1 hk (by rw [B.dt]; exact f3)
    rw [B.dt] at r3
    exact ⟨w2, d2, by rw [pulses, hp]; exact r1, r2, by rw [show m + (n + 1) = m + 1 + n by omega]; exact r3⟩

/-- `∑_{m<n} v m · cos(2πf(m+1)dt)` -/
noncomputable def cosSpec (v : ℕ → ℝ) (f dt : ℝ) (n : ℕ) : ℝ := ((List.range n).map fun m => v m * Real.cos (2 * Real.pi * f * (((m : ℝ) + 1) * dt))).sum
/-- `∑_{m<n} v m · sin(2πf(m+1)dt)` -/
noncomputable def sinSpec (v : ℕ → ℝ) (f dt : ℝ) (n : ℕ) : ℝ := ((List.range n).map fun m => v m * Real.sin (2 * Real.pi * f * (((m : ℝ) + 1) * dt))).sum

/-- **C52**, weakened by the hypothesis that frequencies were requested (see `C52_undefined_without_freq`). After `n` steps the flux
of the total-field source is, for every requested frequency, `Re E·Re H + Im E·Im H` of the Fourier sums over all steps of the
incident wave at node 2 of the line: `E` averaged over the two ends of the step, `H` over the two adjacent half nodes. -/
theorem C52_flux_partial (g : Grid ℝ) (vol : Vol ℝ) (tp : TimeProfile ℝ) (d : Dft ℝ Unit) (hd : tp.dft = some d) (dt : ℝ) (hdt : 0 < dt)
    (e h : ℕ → ℤ → ℝ) (W : LineWave tp.resp dt (Tfsf.make g tp vol dt).Nx e h) (n : ℕ) :
    ∃ w S, pulses n (Tfsf.make g tp vol dt) = .ok w ∧ w.flux = .ok S ∧ S.n = d.freq.length ∧
      ∀ (k : ℕ) (hk : k < d.freq.length), S.val k =
        cosSpec (fun m => (e (m + 1) 2 + e m 2) / 2) d.freq[k] dt n * cosSpec (fun m => (h m 2 + h m 1) / 2) d.freq[k] dt n +
        sinSpec (fun m => (e (m + 1) 2 + e m 2) / 2) d.freq[k] dt n * sinSpec (fun m => (h m 2 + h m 1) / 2) d.freq[k] dt n := by
  have hF : (Tfsf.make g tp vol dt).fourier = some (recorder d.freq ["E", "H"] [()]) := by
    simp only [Tfsf.make, hd, Option.map_some]; rfl
  have O : (Tfsf.make g tp vol dt).OnWave tp.resp e h 0 := Tfsf.make_wave' g vol tp dt W
  obtain ⟨w, d', h1, h2, h3⟩ := pulses_records n 0 _ tp.resp e h (recorder d.freq ["E", "H"] [()]) _ W O hF
    (fun x hx => by simpa using recorder_keys _ _ _ x hx) rfl
  obtain ⟨d2, k1, k2⟩ := C35_fourier_sum_partial d.freq ["E", "H"] [()] (by simp) (incidentSamples e h dt n) (incidentSamples_apart e h hdt n)
  have e1 : d2 = d' := by
    rw [Nat.zero_add] at h3
    exact Except.ok.inj (k1.symm.trans h3)
  subst e1
  obtain ⟨A, a1, a2⟩ := k2 "E" (by simp)
  obtain ⟨B, b1, b2⟩ := k2 "H" (by simp)
  have hq : d2.freq = d.freq := by
    obtain ⟨d3, q1, q2, -⟩ := feed_sum (incidentSamples e h dt n) (recorder d.freq ["E", "H"] [()])
      (fun q hq => by rw [(recorder_find d.freq ["E", "H"] [()]).2.2.1 q hq]; simp)
    rw [k1] at q1
    rw [Except.ok.inj q1, q2]; exact (recorder_find d.freq ["E", "H"] [()]).1
  refine ⟨w, ⟨d2.nfreq, fun k => 0 + (A.re () k * B.re () k + A.im () k * B.im () k)⟩, h1, ?_, ?_, ?_⟩
  · unfold Tfsf.flux
    rw [h2]
    simp only [a1, b1, Except.ok_bind, Except.pure_eq]
  · show d2.nfreq = _
    unfold Dft.nfreq; rw [hq]
  · intro k hk
    obtain ⟨x1, x2⟩ := a2 () (by simp) k hk
    obtain ⟨y1, y2⟩ := b2 () (by simp) k hk
    show 0 + _ = _
    rw [zero_add, x1, x2, y1, y2]
    have c : ¬ ("H" : String) = "E" := by decide
    simp only [incidentSamples, List.map_map, cosSpec, sinSpec, incidentSample, Function.comp_def, if_true, c, if_false]

/-- **C52** is false as stated: without frequencies `flux` runs off the end of a function that must return a value. -/
theorem C52_undefined_without_freq {K : Type} [Scalar K] (g : Grid K) (vol : Vol K) (tp : TimeProfile K) (hd : tp.dft = none) (dt : K)
    (n : ℕ) {w : Tfsf K} (hw : pulses n (Tfsf.make g tp vol dt) = .ok w) : w.flux = .error (.ub .noReturn) := by
  have key : ∀ (n : ℕ) (v : Tfsf K), v.fourier = none → pulses n v = .ok w → w.fourier = none := by
    intro n
    induction n with
    | zero => intro v hv h; cases h; exact hv
    | succ n ih =>
      intro v hv h
      simp only [pulses, Except.bind_ok] at h
      obtain ⟨x, h1, h2⟩ := h
      refine ih x ?_ h2
      unfold Tfsf.pulse at h1
      simp only [hv, tfsfFourier, Except.bind_ok, Except.pure_eq] at h1
      obtain ⟨_, -, _, -, _, -, _, -, _, -, _, -, _, -, _, -, fo, hf, _, -, h1⟩ := h1
      rw [← Except.ok.inj h1]
      exact (Except.ok.inj hf).symm
  unfold Tfsf.flux
  rw [key n _ (by simp [Tfsf.make, hd]) hw]

/-- A concrete case of both: a continuous wave with, and without, requested frequencies. -/
example : ((TimeProfile.continuous (1 / 8 : ℝ)).freq [1 / 8, 1 / 4]).dft = some (recorder [1 / 8, 1 / 4] ["dft"] [()]) ∧
    (TimeProfile.continuous (1 / 8 : ℝ)).dft = none := ⟨rfl, rfl⟩

end Qbox.Props
