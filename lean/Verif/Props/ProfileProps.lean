import Verif.Spec.ProfileSpec
import Verif.Props.IncidentFluxProps

/-!
# C53: every source has a time profile of its own
-/

namespace Qbox.Props
open Qbox Scalar Spec

set_option linter.unusedSectionVars false

section
variable {K : Type} [Scalar K]

/-- The heap `h` holds exactly the profiles `v`, no two of them in the same place. -/
structure Stores (h : Heap K) (v : Profiles K) : Prop where
  mine : h.mine.map (fun a => h.cells[a]?) = v.mine.map some
  src : h.src.map (fun a => h.cells[a]?) = v.src.map some
  nodup : (h.mine ++ h.src).Nodup

theorem stores_get {cells : List (TimeProfile K)} {l : List ℕ} {m : List (TimeProfile K)} (h : l.map (fun a => cells[a]?) = m.map some) (i : ℕ) :
    (l[i]? = none ∧ m[i]? = none) ∨ ∃ a tp, l[i]? = some a ∧ m[i]? = some tp ∧ cells[a]? = some tp := by
  have e := congrArg (fun x => x[i]?) h
  simp only [List.getElem?_map] at e
  cases hl : l[i]? with
  | none =>
    rw [hl] at e
    cases hm : m[i]? with
    | none => exact Or.inl ⟨rfl, rfl⟩
    | some tp => rw [hm] at e; simp at e
  | some a =>
    rw [hl] at e
    cases hm : m[i]? with
    | none => rw [hm] at e; simp at e
    | some tp => rw [hm] at e; exact Or.inr ⟨a, tp, rfl, rfl, by simpa using e⟩

theorem stores_push {cells : List (TimeProfile K)} {l : List ℕ} {m : List (TimeProfile K)} (h : l.map (fun a => cells[a]?) = m.map some)
    (x : TimeProfile K) : l.map (fun a => (cells ++ [x])[a]?) = m.map some := by
  rw [← h]
  refine List.map_congr_left fun a ha => ?_
  have : (cells[a]?) ∈ m.map some := by rw [← h]; exact List.mem_map.mpr ⟨a, ha, rfl⟩
  obtain ⟨tp, -, e⟩ := List.mem_map.mp this
  have hlt : a < cells.length := by
    by_contra c
    rw [List.getElem?_eq_none (by omega)] at e
    cases e
  exact List.getElem?_append_left hlt

theorem stores_lt {cells : List (TimeProfile K)} {l : List ℕ} {m : List (TimeProfile K)} (h : l.map (fun a => cells[a]?) = m.map some) :
    ∀ a ∈ l, a < cells.length := by
  intro a ha
  have : (cells[a]?) ∈ m.map some := by rw [← h]; exact List.mem_map.mpr ⟨a, ha, rfl⟩
  obtain ⟨tp, -, e⟩ := List.mem_map.mp this
  by_contra c
  rw [List.getElem?_eq_none (by omega)] at e
  cases e

theorem stores_set_other {cells : List (TimeProfile K)} {l : List ℕ} {m : List (TimeProfile K)} (h : l.map (fun a => cells[a]?) = m.map some)
    {b : ℕ} (hb : b ∉ l) (x : TimeProfile K) : l.map (fun a => (cells.set b x)[a]?) = m.map some := by
  rw [← h]
  refine List.map_congr_left fun a ha => ?_
  rw [List.getElem?_set_ne (by rintro rfl; exact hb ha)]

theorem stores_set_own {cells : List (TimeProfile K)} {l : List ℕ} {m : List (TimeProfile K)} (h : l.map (fun a => cells[a]?) = m.map some)
    (hn : l.Nodup) {b i : ℕ} (hb : l[i]? = some b) (x : TimeProfile K) : l.map (fun a => (cells.set b x)[a]?) = (m.set i x).map some := by
  refine List.ext_getElem? fun j => ?_
  have hi : i < l.length := by
    by_contra c
    rw [List.getElem?_eq_none (by omega)] at hb; cases hb
  have hlen : l.length = m.length := by simpa using congrArg List.length h
  have hbl : b < cells.length := stores_lt h b (List.mem_of_getElem? hb)
  simp only [List.getElem?_map]
  by_cases c : j = i
  · subst c
    rw [hb, List.getElem?_set_self (by omega)]
    simp [hbl]
  · rw [List.getElem?_set_ne (by omega)]
    rcases stores_get h j with ⟨h1, h2⟩ | ⟨a, tp, h1, h2, h3⟩
    · rw [h1, h2]; rfl
    · rw [h1, h2]
      simp only [Option.map_some]
      rw [List.getElem?_set_ne ?_, h3]
      rintro rfl
      have hj : j < l.length := by
        by_contra c
        rw [List.getElem?_eq_none (by omega)] at h1; cases h1
      rw [List.getElem?_eq_getElem hi] at hb
      rw [List.getElem?_eq_getElem hj] at h1
      have := (List.Nodup.getElem_inj_iff hn (hi := hj) (hj := hi)).mp (by rw [Option.some.inj hb, Option.some.inj h1])
      exact c this

theorem Stores.step {h : Heap K} {v : Profiles K} (S : Stores h v) (o : HOp K) :
    (∃ e, h.step o = .error e ∧ v.step o = .error e) ∨ ∃ h' v', h.step o = .ok h' ∧ v.step o = .ok v' ∧ Stores h' v' := by
  obtain ⟨s1, s2, s3⟩ := S
  obtain ⟨n1, n2, n3⟩ := List.nodup_append.mp s3
  have fresh : h.cells.length ∉ h.mine ++ h.src := by
    intro hm
    rcases List.mem_append.mp hm with hm | hm
    · exact absurd (stores_lt s1 _ hm) (by omega)
    · exact absurd (stores_lt s2 _ hm) (by omega)
  have f1 : h.cells.length ∉ h.mine := fun hm => fresh (List.mem_append_left _ hm)
  have f2 : h.cells.length ∉ h.src := fun hm => fresh (List.mem_append_right _ hm)
  cases o with
  | construct tp =>
    refine Or.inr ⟨_, _, rfl, rfl, ?_, stores_push s2 tp, ?_⟩
    · simp only [List.map_append, List.map_cons, List.map_nil]
      rw [stores_push s1 tp]
      simp
    · simp only [List.append_assoc, List.singleton_append]
      exact List.nodup_append.mpr ⟨n1, List.nodup_cons.mpr ⟨f2, n2⟩, fun a ha b hb => by
        rcases List.mem_cons.mp hb with rfl | hb
        · rintro rfl; exact f1 ha
        · exact n3 a ha b hb⟩
  | freq i fr =>
    rcases stores_get s1 i with ⟨h1, h2⟩ | ⟨a, tp, h1, h2, h3⟩
    · exact Or.inl ⟨_, by simp only [Heap.step, addr, h1]; rfl, by simp only [Profiles.step, h2]⟩
    · refine Or.inr ⟨{ h with cells := h.cells.set a (tp.freq fr) }, { v with mine := v.mine.set i (tp.freq fr) },
        by simp only [Heap.step, addr, h1, Heap.at, h3, Except.ok_bind]; rfl, by simp only [Profiles.step, h2], ?_, ?_, s3⟩
      · exact stores_set_own s1 n1 h1 _
      · exact stores_set_other s2 (fun hm => n3 a (List.mem_of_getElem? h1) a hm rfl) _
  | respond i t =>
    rcases stores_get s1 i with ⟨h1, h2⟩ | ⟨a, tp, h1, h2, h3⟩
    · exact Or.inl ⟨_, by simp only [Heap.step, addr, h1]; rfl, by simp only [Profiles.step, respondAt, h2]; rfl⟩
    · obtain ⟨tp', hr, -⟩ := TimeProfile.response_ok tp t
      refine Or.inr ⟨{ h with cells := h.cells.set a tp' }, { v with mine := v.mine.set i tp' }, by simp only [Heap.step, addr, h1, Heap.respond, Heap.at, h3, Except.ok_bind, hr]; rfl,
        by simp only [Profiles.step, respondAt, h2, hr, Except.ok_bind]; rfl, ?_, ?_, s3⟩
      · exact stores_set_own s1 n1 h1 _
      · exact stores_set_other s2 (fun hm => n3 a (List.mem_of_getElem? h1) a hm rfl) _
  | source i =>
    rcases stores_get s1 i with ⟨h1, h2⟩ | ⟨a, tp, h1, h2, h3⟩
    · exact Or.inl ⟨_, by simp only [Heap.step, addr, h1]; rfl, by simp only [Profiles.step, h2]⟩
    · refine Or.inr ⟨{ h with cells := h.cells ++ [tp], src := h.src ++ [h.cells.length] }, { v with src := v.src ++ [tp] },
        by simp only [Heap.step, addr, h1, Heap.at, h3, Except.ok_bind]; rfl, by simp only [Profiles.step, h2],
        stores_push s1 tp, ?_, ?_⟩
      · simp only [List.map_append, List.map_cons, List.map_nil]
        rw [stores_push s2 tp]
        simp
      · rw [← List.append_assoc]
        exact List.nodup_append.mpr ⟨s3, by simp, fun x hx y hy => by
          rw [List.mem_singleton] at hy
          rintro rfl; rw [hy] at hx; exact fresh hx⟩
  | pulse k t =>
    rcases stores_get s2 k with ⟨h1, h2⟩ | ⟨a, tp, h1, h2, h3⟩
    · exact Or.inl ⟨_, by simp only [Heap.step, addr, h1]; rfl, by simp only [Profiles.step, respondAt, h2]; rfl⟩
    · obtain ⟨tp', hr, -⟩ := TimeProfile.response_ok tp t
      refine Or.inr ⟨{ h with cells := h.cells.set a tp' }, { v with src := v.src.set k tp' }, by simp only [Heap.step, addr, h1, Heap.respond, Heap.at, h3, Except.ok_bind, hr]; rfl,
        by simp only [Profiles.step, respondAt, h2, hr, Except.ok_bind]; rfl, ?_, ?_, s3⟩
      · exact stores_set_other s1 (fun hm => n3 a hm a (List.mem_of_getElem? h1) rfl) _
      · exact stores_set_own s2 n2 h1 _

/-- **C53** (aliasing). After any history of constructing profiles, requesting frequencies, evaluating profiles, constructing
sources and pulsing them, the objects in memory hold what they would hold if every source had its own value: a pulse changes the
profile of that source and no other source's or user's profile. -/
theorem C53_own_copy (ops : List (HOp K)) :
    (∃ e, (Heap.mk [] [] [] : Heap K).run ops = .error e ∧ (Profiles.mk [] []).run ops = .error e) ∨
    ∃ h v, (Heap.mk [] [] [] : Heap K).run ops = .ok h ∧ (Profiles.mk [] []).run ops = .ok v ∧ Stores h v := by
  have key : ∀ (ops : List (HOp K)) (h : Heap K) (v : Profiles K), Stores h v →
      (∃ e, h.run ops = .error e ∧ v.run ops = .error e) ∨ ∃ h' v', h.run ops = .ok h' ∧ v.run ops = .ok v' ∧ Stores h' v' := by
    intro ops
    induction ops with
    | nil => intro h v S; exact Or.inr ⟨h, v, rfl, rfl, S⟩
    | cons o ops ih =>
      intro h v S
      rcases S.step o with ⟨e, e1, e2⟩ | ⟨h', v', e1, e2, S'⟩
      · exact Or.inl ⟨e, by rw [Heap.run, e1]; rfl, by rw [Profiles.run, e2]; rfl⟩
      · rcases ih h' v' S' with ⟨e, q1, q2⟩ | ⟨h2, v2, q1, q2, S2⟩
        · exact Or.inl ⟨e, by rw [Heap.run, e1]; exact q1, by rw [Profiles.run, e2]; exact q2⟩
        · exact Or.inr ⟨h2, v2, by rw [Heap.run, e1]; exact q1, by rw [Profiles.run, e2]; exact q2, S2⟩
  exact key ops _ _ ⟨rfl, rfl, by simp⟩

/-- **C53** (aliasing, one pulse). In any reachable heap a pulse leaves every profile of the user as it is. -/
theorem C53_pulse_spares_user (ops : List (HOp K)) {h h' : Heap K} (hr : (Heap.mk [] [] [] : Heap K).run ops = .ok h) (k : ℕ) (t : K)
    (hp : h.step (.pulse k t) = .ok h') : h'.mine = h.mine ∧ ∀ a ∈ h.mine, h'.cells[a]? = h.cells[a]? := by
  rcases C53_own_copy ops with ⟨e, e1, -⟩ | ⟨h1, v, e1, -, S⟩
  · rw [hr] at e1; cases e1
  · rw [hr] at e1
    cases e1
    simp only [Heap.step, Heap.respond, Except.bind_ok, Except.pure_eq] at hp
    obtain ⟨a, ha, tp, -, r, -, h3⟩ := hp
    cases h3
    refine ⟨rfl, fun b hb => List.getElem?_set_ne ?_⟩
    rintro rfl
    unfold addr at ha
    cases hk : h.src[k]? with
    | none => rw [hk] at ha; cases ha
    | some c =>
      rw [hk] at ha
      cases ha
      exact (List.nodup_append.mp S.nodup).2.2 a hb a (List.mem_of_getElem? hk) rfl

end

/-- A concrete case of C53: one profile with frequencies, two sources made from it, one of which pulses. -/
example : ∃ h : Heap ℝ, (Heap.mk [] [] [] : Heap ℝ).run [.construct (.continuous (1 / 8)), .freq 0 [1 / 8], .source 0, .source 0, .pulse 1 1] = .ok h ∧
    h.mine = [0] ∧ h.src = [1, 2] ∧ h.cells.length = 3 := by
  obtain ⟨tp', hr, -⟩ := TimeProfile.response_ok ((TimeProfile.continuous (1 / 8 : ℝ)).freq [1 / 8]) 1
  refine ⟨⟨[(TimeProfile.continuous (1 / 8 : ℝ)).freq [1 / 8], (TimeProfile.continuous (1 / 8 : ℝ)).freq [1 / 8], tp'], [0], [1, 2]⟩, ?_, rfl, rfl, rfl⟩
  simp only [Heap.run, Heap.step, addr, Heap.at, Heap.respond, Except.ok_bind, Except.pure_eq, List.nil_append, List.length_nil,
    List.getElem?_cons_zero, List.set_cons_zero, List.cons_append, List.length_cons, List.getElem?_cons_succ, List.set_cons_succ, hr,
    Nat.zero_add, Nat.reduceAdd]

/-! ## The recorded spectrum -/

/-- What a source records of its signal `r` in the `m+1`-st update after time `t0`. -/
noncomputable def emitted (r : ℝ → ℝ) (t0 dt : ℝ) (m : ℕ) : Sample ℝ Unit := ⟨t0 + ((m : ℝ) + 1) * dt, fun _ _ => r (t0 + ((m : ℝ) + 1) * dt)⟩

theorem Source.pulse_tp {K : Type} [Scalar K] {g : Grid K} {t : K} {s : Source K} {f f' : Flds K} (h : (s.pulse g t f).2 = .ok f') :
    ∃ v, s.tp.response t = .ok (v, (s.pulse g t f).1.tp) := by
  obtain ⟨tp', hr, -⟩ := TimeProfile.response_ok s.tp t
  unfold Source.pulse at h ⊢
  cases hk : s.kind with
  | point C p => simp only [hr]; exact ⟨_, rfl⟩
  | line C surf =>
    simp only [hk] at h ⊢
    cases hs : g.toGridS surf with
    | error e => rw [hs] at h; cases h
    | ok is => simp only [hr]; exact ⟨_, rfl⟩

theorem pulseAll_tp {K : Type} [Scalar K] {g : Grid K} {t : K} : ∀ (l l' : List (Source K)) (f f' : Flds K), pulseAll g t l f = .ok (l', f') →
    List.Forall₂ (fun s s' => ∃ v, s.tp.response t = .ok (v, s'.tp)) l l'
  | [], l', f, f', h => by cases h; exact .nil
  | s :: l, l', f, f', h => by
    unfold pulseAll at h
    simp only [Except.bind_ok, Except.pure_eq] at h
    obtain ⟨f1, h1, r, h2, h3⟩ := h
    cases h3
    exact .cons (Source.pulse_tp h1) (pulseAll_tp l r.1 f1 r.2 h2)

theorem response_feed {tp tp' : TimeProfile ℝ} {t v : ℝ} {d : Dft ℝ Unit} (hd : tp.dft = some d) (h : tp.response t = .ok (v, tp')) :
    ∃ d', tp'.dft = some d' ∧ feed d [⟨t, fun _ _ => tp.resp t⟩] = .ok d' ∧ tp'.resp = tp.resp := by
  unfold TimeProfile.response at h
  simp only [hd, Except.bind_ok, Except.pure_eq] at h
  obtain ⟨r, h1, h2⟩ := h
  cases h2
  exact ⟨r.1, rfl, by simp only [feed, h1, Except.ok_bind], rfl⟩

theorem emitted_apart (r : ℝ → ℝ) {dt t0 : ℝ} (hdt : 0 < dt) (h0 : 0 ≤ t0) (n : ℕ) : Apart 0 ((List.range n).map (emitted r t0 dt)) := by
  have key : ∀ (n k : ℕ) (u : ℝ), u < t0 + ((k : ℝ) + 1) * dt → Apart u ((List.range' k n).map (emitted r t0 dt)) := by
    intro n
    induction n with
    | zero => intro k u _; trivial
    | succ n ih =>
      intro k u hu
      refine ⟨ne_of_lt hu, ih (k + 1) _ ?_⟩
      simp only [emitted]
      push_cast
      nlinarith
  rw [List.range_eq_range']
  refine key n 0 0 ?_
  push_cast
  linarith

theorem forall₂_comp {α β γ : Type} {R : α → β → Prop} {Q : β → γ → Prop} {T : α → γ → Prop} (hT : ∀ a b c, R a b → Q b c → T a c) :
    ∀ {l : List α} {l1 : List β} {l2 : List γ}, List.Forall₂ R l l1 → List.Forall₂ Q l1 l2 → List.Forall₂ T l l2
  | _, _, _, .nil, .nil => .nil
  | _, _, _, .cons h1 t1, .cons h2 t2 => .cons (hT _ _ _ h1 h2) (forall₂_comp hT t1 t2)

theorem update_tp {K : Type} [Scalar K] {c c1 : Core K} {l l1 : List (Source K)} (hu : c.update l = .ok (c1, l1)) :
    c1.t = c.t + c.g.dt ∧ c1.g = c.g ∧ List.Forall₂ (fun s s' : Source K => ∃ v, s.tp.response (c.t + c.g.dt) = .ok (v, s'.tp)) l l1 := by
  unfold Core.update at hu
  simp only [Except.bind_ok, Except.pure_eq] at hu
  obtain ⟨b, hb, r, h2, b2, h3, h4⟩ := hu
  obtain ⟨q1, q2⟩ := Prod.mk.inj (Except.ok.inj h4)
  have hF := pulseAll_tp _ _ _ _ h2
  rw [q2] at hF
  unfold Core.stageE at hb
  simp only [Except.bind_ok] at hb
  obtain ⟨E0, -, ⟨p, E1⟩, -, ⟨d, E2⟩, h1, ⟨_, E3⟩, h2, ⟨_, E4⟩, _, E5, -, hb⟩ := hb
  unfold Core.stageH at h3
  simp only [Except.bind_ok] at h3
  obtain ⟨w, -, hh, -, ⟨p, X, Y⟩, -, h2, -, h3⟩ := h3
  have hb := Except.ok.inj hb
  have h3 := Except.ok.inj h3
  have et : b.t = c.t + c.g.dt := by rw [← hb]
  have eg : b.g = c.g := by rw [← hb]
  rw [et] at hF
  refine ⟨?_, ?_, hF⟩
  · rw [← q1, ← h3]; exact et
  · rw [← q1, ← h3]; exact eg

/-- Profiles after `n` updates. -/
theorem run_emitted (n : ℕ) : ∀ (c c' : Core ℝ) (l l' : List (Source ℝ)), c.run n l = .ok (c', l') →
    List.Forall₂ (fun s s' : Source ℝ => s'.tp.resp = s.tp.resp ∧ ∀ d, s.tp.dft = some d → ∃ d', s'.tp.dft = some d' ∧
        feed d ((List.range n).map (emitted s.tp.resp c.t c.g.dt)) = .ok d') l l' := by
  induction n with
  | zero =>
    intro c c' l l' h
    cases h
    exact List.forall₂_same.mpr fun s _ => ⟨rfl, fun d hd => ⟨d, hd, rfl⟩⟩
  | succ n ih =>
    intro c c' l l' h
    simp only [Core.run, Except.bind_ok] at h
    obtain ⟨⟨c1, l1⟩, h1, h2⟩ := h
    obtain ⟨e1, e2, F1⟩ := update_tp h1
    have F2 := ih c1 c' l1 l' h2
    rw [e1, e2] at F2
    refine forall₂_comp ?_ F1 F2
    rintro s s1 s2 ⟨v, hv⟩ ⟨r1, r2⟩
    obtain ⟨tp', hr', hr2⟩ := TimeProfile.response_ok s.tp (c.t + c.g.dt)
    rw [hv] at hr'
    have e3 : s1.tp.resp = s.tp.resp := by rw [(Prod.mk.inj (Except.ok.inj hr')).2]; exact hr2
    refine ⟨r1.trans e3, fun d hd => ?_⟩
    obtain ⟨d1, k1, k2, -⟩ := response_feed hd hv
    obtain ⟨d2, k3, k4⟩ := r2 d1 k1
    refine ⟨d2, k3, ?_⟩
    rw [List.range_succ_eq_map, List.map_cons, List.map_map]
    have e4 : emitted s.tp.resp c.t c.g.dt 0 = ⟨c.t + c.g.dt, fun _ _ => s.tp.resp (c.t + c.g.dt)⟩ := by
      unfold emitted; norm_num
    have e5 : (emitted s.tp.resp c.t c.g.dt ∘ Nat.succ) = emitted s1.tp.resp (c.t + c.g.dt) c.g.dt := by
      funext m
      simp only [emitted, Function.comp_def, e3]
      have : c.t + (((Nat.succ m : ℕ) : ℝ) + 1) * c.g.dt = c.t + c.g.dt + ((m : ℝ) + 1) * c.g.dt := by push_cast; ring
      rw [this]
    rw [e4, e5]
    simp only [feed] at k2 ⊢
    simp only [Except.bind_ok] at k2
    obtain ⟨r, k5, k6⟩ := k2
    cases k6
    rw [k5]
    simp only [Except.ok_bind]
    exact k4

/-- **C53** (spectrum). A source made from a profile for which frequencies were requested records the Fourier sums of the values
it emitted, one per update: after `n` updates from time `t ≥ 0` they are `∑_{m=1}^{n} r(t+m·dt)·cos(2πf(t+m·dt))` and the same with the
sine, `r` being the signal. -/
theorem C53_spectrum (n : ℕ) (c : Core ℝ) (hdt : 0 < c.g.dt) (ht : 0 ≤ c.t) (l : List (Source ℝ)) {c' : Core ℝ} {l' : List (Source ℝ)}
    (h : c.run n l = .ok (c', l')) :
    List.Forall₂ (fun s s' : Source ℝ => ∀ (tp : TimeProfile ℝ) (fr : List ℝ), s.tp = tp.freq fr →
      ∃ d A, s'.tp.dft = some d ∧ d.get "dft" = .ok A ∧ ∀ (k : ℕ) (hk : k < fr.length),
        A.re () k = ((List.range n).map fun m : ℕ => tp.resp (c.t + ((m : ℝ) + 1) * c.g.dt) *
          Real.cos (2 * Real.pi * fr[k] * (c.t + ((m : ℝ) + 1) * c.g.dt))).sum ∧
        A.im () k = ((List.range n).map fun m : ℕ => tp.resp (c.t + ((m : ℝ) + 1) * c.g.dt) *
          Real.sin (2 * Real.pi * fr[k] * (c.t + ((m : ℝ) + 1) * c.g.dt))).sum) l l' := by
  refine List.Forall₂.imp ?_ (run_emitted n c c' l l' h)
  rintro s s' ⟨-, hs⟩ tp fr etp
  have hd : s.tp.dft = some (recorder fr ["dft"] [()]) := by rw [etp]; rfl
  have er : s.tp.resp = tp.resp := by rw [etp]; rfl
  obtain ⟨d, h1, h2⟩ := hs _ hd
  obtain ⟨d2, k1, k2⟩ := C35_fourier_sum_partial fr ["dft"] [()] (by simp) _ (emitted_apart s.tp.resp hdt ht n)
  have e : d2 = d := Except.ok.inj (k1.symm.trans h2)
  subst e
  obtain ⟨A, a1, a2⟩ := k2 "dft" (by simp)
  refine ⟨d2, A, h1, a1, fun k hk => ?_⟩
  obtain ⟨x1, x2⟩ := a2 () (by simp) k hk
  rw [x1, x2, er]
  constructor <;> (rw [List.map_map]; rfl)

end Qbox.Props
