import Verif.Lemmas.SimCore
import Verif.Lemmas.NodeRecord
import Verif.Props.HistoryProps
import Verif.Spec.PointSpec

/-! # C43: point monitors -/

namespace Qbox.Props
open Qbox Scalar Spec

set_option linter.unusedSectionVars false

section
variable {K : Type} [Scalar K]

/-- One update that counts. -/
theorem point_step (f : Flds K) (t : K) {Nx Ny : ℤ} (hf : f.Dims Nx Ny) (node : V2 ℤ) (h1 : 1 ≤ node.x) (h2 : node.x < Nx) (h3 : 1 ≤ node.y)
    (h4 : node.y < Ny) (names : List String) (hN : names.Nodup) (hn : ∀ x ∈ names, x = "Ez" ∨ x = "Hx" ∨ x = "Hy") (m : PointMon K)
    (hk : m.fourier.acc.map Prod.fst = names) (hp : ∀ a ∈ m.fourier.acc, a.2.pos = [()]) (ht : eqb m.fourier.t t = false) :
    ∃ m' : PointMon K, m.updateWith f t (.ok node) = .ok m' ∧ (∀ l, feed m.fourier (centred node m.prevE [(f, t)] ++ l) = feed m'.fourier l) ∧ m'.fourier.t = t ∧
      m'.fourier.freq = m.fourier.freq ∧ m'.fourier.acc.map Prod.fst = names ∧ (∀ a ∈ m'.fourier.acc, a.2.pos = [()]) ∧
      ("Ez" ∈ names → m'.prevE = f.Ez.val node.x node.y) := by
  have hpn : ∀ q ∈ m.fourier.acc, q.2.pos.Nodup := fun q hq => by rw [hp q hq]; simp
  have hnd : (sampleList m.fourier.acc).Nodup := nodup_sampleList (by rw [hk]; exact hN) hpn
  have rd : ∀ {T : Tensor K}, T.Dim Nx Ny → ∀ i j, 0 ≤ i → i < Nx → 0 ≤ j → j < Ny → T.rd i j = .ok (T.val i j) := by
    intro T hT i j i0 i1 j0 j1
    exact Tensor.rd_in i0 (by rw [hT.1]; exact i1) j0 (by rw [hT.2]; exact j1)
  let v : String → Unit → K := fun n _ =>
      if n = "Ez" then (f.Ez.val node.x node.y + m.prevE) / ofInt 2
      else if n = "Hx" then (f.Hx.val node.x node.y + f.Hx.val node.x (node.y - 1)) / ofInt 2
      else (f.Hy.val node.x node.y + f.Hy.val (node.x - 1) node.y) / ofInt 2
  obtain ⟨p', e, q⟩ := dftUpdate_sum m.fourier (pointSample f (.ok node)) t v
    (fun rest p => rest.Nodup ∧ (∀ x u, (x, u) ∈ rest → x ∈ names) ∧ (("Ez", ()) ∈ rest → p = m.prevE) ∧
      ("Ez" ∈ names → ("Ez", ()) ∉ rest → p = f.Ez.val node.x node.y))
    (by
      rintro x u rest p ⟨q1, q2, q3, q4⟩
      rw [List.nodup_cons] at q1
      have hx := q2 x u (by simp)
      rcases hn x hx with rfl | rfl | rfl
      · refine ⟨f.Ez.val node.x node.y, ?_, q1.2, fun x u h => q2 x u (by simp [h]), fun h => absurd h q1.1, fun _ _ => rfl⟩
        simp only [pointSample, v, if_true, Except.ok_bind, rd hf.Ez node.x node.y (by omega) h2 (by omega) h4, Except.pure_eq, q3 (by simp)]
      · refine ⟨p, ?_, q1.2, fun x u h => q2 x u (by simp [h]), fun h => q3 (by simp [h]), fun h h' => q4 h (by simp [h'])⟩
        have c1 : "Hx" ≠ "Ez" := by decide
        simp only [pointSample, v, if_neg c1, if_true, Except.ok_bind, rd hf.Hx node.x node.y (by omega) h2 (by omega) h4,
          rd hf.Hx node.x (node.y - 1) (by omega) h2 (by omega) (by omega), Except.pure_eq]
      · refine ⟨p, ?_, q1.2, fun x u h => q2 x u (by simp [h]), fun h => q3 (by simp [h]), fun h h' => q4 h (by simp [h'])⟩
        have c1 : "Hy" ≠ "Ez" := by decide
        have c2 : "Hy" ≠ "Hx" := by decide
        simp only [pointSample, v, if_neg c1, if_neg c2, if_true, Except.ok_bind, rd hf.Hy node.x node.y (by omega) h2 (by omega) h4,
          rd hf.Hy (node.x - 1) node.y (by omega) (by omega) (by omega) (by omega), Except.pure_eq])
    m.prevE hpn ht ⟨hnd, fun x u hx => by
      obtain ⟨a, ha, rfl, -⟩ := mem_sampleList.mp hx
      rw [← hk]; exact List.mem_map_of_mem ha, fun _ => rfl, fun hz hm => by
        rw [← hk, List.mem_map] at hz
        obtain ⟨a, ha, hz⟩ := hz
        exact absurd (mem_sampleList.mpr ⟨a, ha, hz, by rw [hp a ha]; simp⟩) hm⟩
  refine ⟨{ m with fourier := ⟨t, m.fourier.freq, m.fourier.acc.map fun q => (q.1, q.2.plus m.fourier.freq t (· ∈ q.2.pos) (v q.1))⟩, prevE := p' },
    ?_, fun l => ?_, rfl, rfl, ?_, ?_, fun hz => q.2.2.2 hz (by simp)⟩
  · unfold PointMon.updateWith
    rw [e]
    rfl
  · simp only [centred, List.cons_append, List.nil_append, feed]
    have := dftUpdate_pure m.fourier t v hpn ht
    rw [this]
    rfl
  · simp only [List.map_map]; exact hk
  · intro a ha
    simp only [List.mem_map] at ha
    obtain ⟨b, hb, rfl⟩ := ha
    exact hp b hb

theorem point_runs {Nx Ny : ℤ} (node : V2 ℤ) (h1 : 1 ≤ node.x) (h2 : node.x < Nx) (h3 : 1 ≤ node.y) (h4 : node.y < Ny) (names : List String)
    (hN : names.Nodup) (hn : ∀ x ∈ names, x = "Ez" ∨ x = "Hx" ∨ x = "Hy") : ∀ (l : List (Flds K × K)) (m : PointMon K) (prev : K),
    (∀ q ∈ l, q.1.Dims Nx Ny) → m.fourier.acc.map Prod.fst = names → (∀ a ∈ m.fourier.acc, a.2.pos = [()]) →
    List.IsChain (fun a b => eqb a b = false) (m.fourier.t :: l.map Prod.snd) → ("Ez" ∈ names → m.prevE = prev) →
    ∃ m' L, PointMon.runsAt node l m = .ok m' ∧ feed m.fourier L = .ok m'.fourier ∧ m'.fourier.freq = m.fourier.freq ∧
      List.Forall₂ (fun s s' : Sample K Unit => s.t = s'.t ∧ ∀ x ∈ names, ∀ u, s.v x u = s'.v x u) L (centred node prev l)
  | [], m, prev, _, _, _, _, _ => ⟨m, [], rfl, rfl, rfl, .nil⟩
  | (f, t) :: l, m, prev, hl, hk, hp, hc, he => by
    rw [List.map_cons, List.isChain_cons_cons] at hc
    obtain ⟨m1, e1, e2, e3, e4, e5, e6, e7⟩ := point_step f t (hl (f, t) (by simp)) node h1 h2 h3 h4 names hN hn m hk hp hc.1
    obtain ⟨m', L, r1, r2, r3, r4⟩ := point_runs node h1 h2 h3 h4 names hN hn l m1 (f.Ez.val node.x node.y) (fun q hq => hl q (by simp [hq])) e5 e6
      (by rw [e3]; exact hc.2) e7
    refine ⟨m', centred node m.prevE [(f, t)] ++ L, ?_, by rw [e2]; exact r2, r3.trans e4, .cons ⟨rfl, fun x hx u => ?_⟩ r4⟩
    · rw [PointMon.runsAt, e1]; exact r1
    · by_cases c : x = "Ez"
      · subst c; simp only [he hx]
      · simp only [c, if_false]

theorem centred_times (node : V2 ℤ) : ∀ (l : List (Flds K × K)) (prev : K), (centred node prev l).map (·.t) = l.map Prod.snd
  | [], _ => rfl
  | (f, t) :: l, prev => by simp [centred, centred_times node l]

end

/-- **C43**, partial: if the storage of the local variable `ipos` of `point_monitor::locate` still held the node when the closures run, a point
monitor at a node with neighbours below and to the left would hold the Fourier sums, at every frequency, of the fields centred at the node half a step
before each update. Missing: reading that storage is undefined behaviour, `C43_dangling`. -/
theorem C43_centred_partial (name : String) (pos : V2 ℝ) (tag : DftTag) (freq : List ℝ) (Nx Ny : ℤ) (node : V2 ℤ) (h1 : 1 ≤ node.x) (h2 : node.x < Nx)
    (h3 : 1 ≤ node.y) (h4 : node.y < Ny) (l : List (Flds ℝ × ℝ)) (hl : ∀ q ∈ l, q.1.Dims Nx Ny)
    (hc : List.IsChain (fun a b => a ≠ b) (0 :: l.map Prod.snd)) :
    ∃ m, PointMon.runsAt node l (PointMon.make name pos tag freq).setF = .ok m ∧ m.fourier.freq = freq ∧
      ∀ x ∈ volKeys tag, ∃ acc, m.fourier.get x = .ok acc ∧ acc.pos = [()] ∧ Holds acc freq x (centred node 0 l) := by
  obtain ⟨k1, k2, k3, k4⟩ := addAll_acc (K := ℝ) freq [()] (volKeys tag) (volKeys_mem tag)
  have hc' : List.IsChain (fun a b : ℝ => eqb a b = false) (0 :: l.map Prod.snd) := hc.imp fun a b h => by simpa using h
  have hpos : ∀ a ∈ (PointMon.make name pos tag freq).setF.fourier.acc, a.2.pos = [()] := by
    intro a ha
    change a ∈ ((Dft.make freq : Dft ℝ Unit).addAll [()] (volKeys tag)).acc at ha
    rw [k1, List.mem_map] at ha
    obtain ⟨n, -, rfl⟩ := ha
    rfl
  obtain ⟨m, L, r1, r2, r3, r4⟩ := point_runs node h1 h2 h3 h4 (volKeys tag) k4 (by intro x hx; cases tag <;> simp [volKeys] at hx <;> tauto) l
    (PointMon.make name pos tag freq).setF 0 hl (by
      show List.map _ ((Dft.make freq : Dft ℝ Unit).addAll [()] (volKeys tag)).acc = _
      rw [k1, List.map_map]; exact List.map_id _) hpos (by
      show List.IsChain _ (((Dft.make freq : Dft ℝ Unit).addAll [()] (volKeys tag)).t :: _)
      rw [k3]; exact hc') (fun _ => rfl)
  refine ⟨m, r1, r3.trans k2, fun x hx => ?_⟩
  obtain ⟨d, f1, f2, f3⟩ := feed_holds freq [()] (by simp) (volKeys tag) (volKeys_mem tag) L
  change feed ((Dft.make freq : Dft ℝ Unit).addAll [()] (volKeys tag)) L = _ at r2
  rw [r2] at f1
  cases f1
  obtain ⟨acc, a1, a2, a3⟩ := f3 x hx
  have hcc := counted_forall₂ (R := fun s s' : Sample ℝ Unit => s.t = s'.t ∧ ∀ x ∈ volKeys tag, ∀ u, s.v x u = s'.v x u) (fun _ _ h => h.1) r4 0
  rw [counted_all (centred node 0 l) 0 (by rw [centred_times]; exact hc')] at hcc
  refine ⟨acc, a1, a2, ⟨fun p hp k hk => ?_, fun p hp k hk => ?_⟩⟩
  · rw [a3.re p hp k hk]
    exact cosSum_congr _ _ _ (hcc.imp fun s s' h => ⟨h.1, h.2 x hx p⟩) _
  · rw [a3.im p hp k hk]
    exact sinSum_congr _ _ _ (hcc.imp fun s s' h => ⟨h.1, h.2 x hx p⟩) _

theorem mapM'_last {α : Type} {step : α → M α} {e : Fault} : ∀ (l l' : List α) (a : α), mapM' step l = .ok l' → step a = .error e →
    mapM' step (l ++ [a]) = .error e
  | [], l', a, _, h => by simp only [List.nil_append, mapM', h, Except.error_bind]
  | b :: l, l', a, h1, h => by
    rw [mapM'] at h1
    obtain ⟨b', e1, h1⟩ := (Except.bind_ok ..).mp h1
    obtain ⟨l1, e2, h1⟩ := (Except.bind_ok ..).mp h1
    rw [List.cons_append, mapM', e1, Except.ok_bind, mapM'_last l l1 a e2 h, Except.error_bind]

/-- The first update of a point monitor reads a dead variable. -/
theorem point_dangles (f : Flds ℝ) (t : ℝ) (ht : t ≠ 0) (name : String) (pos : V2 ℝ) (tag : DftTag) (htag : tag ≠ .tangent) (freq : List ℝ) :
    ((PointMon.make name pos tag freq).setF).update f t = .error (.ub .dangling) := by
  obtain ⟨k1, -, k3, -⟩ := addAll_acc (K := ℝ) freq [()] (volKeys tag) (volKeys_mem tag)
  have h0 : eqb (0 : ℝ) t = false := by simpa using Ne.symm ht
  unfold PointMon.update PointMon.updateWith
  change (Dft.update ((Dft.make freq : Dft ℝ Unit).addAll [()] (volKeys tag)) _ _ _ >>= _) = _
  unfold Dft.update
  rw [k3, h0, k1]
  have c1 : "Hx" ≠ "Ez" := by decide
  have c2 : "Hy" ≠ "Ez" := by decide
  have c3 : "Hy" ≠ "Hx" := by decide
  cases tag with
  | tangent => exact absurd rfl htag
  | _ =>
    simp only [volKeys, List.map_cons, accLoop, forList_cons, accPoint, pointSample, if_true, if_neg c1, if_neg c2, if_neg c3, Except.error_bind,
      Bool.false_eq_true, if_false]

/-- **C43** is false: whatever was done before (inside the domain and without output), the first update after a point monitor has been added reads, in
the closures made by `point_monitor::locate`, a local variable of a call that has returned. -/
theorem C43_dangling (now : ℕ → ℝ) (g : Grid ℝ) (hw : g.Wide) (hd : 0 < g.dx) (ht : 0 < g.dt) (fn : String) (hf : fn ≠ "") (ops : List (Op ℝ))
    (hi : Inside False g [] ops) (hn : ∀ op ∈ ops, NoOutput op) (name : String) (pos : V2 ℝ) (tag : DftTag) (htag : tag ≠ .tangent) (freq : List ℝ) :
    ∃ s0, Sim.make now g fn = .ok s0 ∧
      s0.runOk now (ops ++ [.addMonitor (.point (.make name pos tag freq)), .update]) = .error (.ub .dangling) := by
  obtain ⟨s0, h0, hs0⟩ := make_safe now False g hw fn hf
  obtain ⟨s, e, -, hg0, -, ht0, -, -, -, -, t0, -, ck⟩ := make_named now (g := g) (by have := hw.nx; omega) (by have := hw.ny; omega) (fn := fn) hf
  rw [h0] at e
  cases e
  obtain ⟨s1, objs, e1, safe1, idle1, tm1⟩ := runOk_plain now hw hd _ _ s0 hi hs0 ck.idle t0 hn
  have time1 := runOk_time now ops s0 s1 (by rw [hg0]; exact ht) (by rw [ht0]) e1
  refine ⟨s0, h0, ?_⟩
  rw [runOk_append, e1, Except.ok_bind]
  set m : PointMon ℝ := (PointMon.make name pos tag freq).setF with hm
  have e2 : s1.step now (.addMonitor (.point (.make name pos tag freq))) = .ok { s1 with mons := s1.mons ++ [.point m] } := rfl
  obtain ⟨c, e3, w1, g1, -⟩ := Core.stageE_ok safe1.wf (by rw [safe1.grid]; exact hw)
  obtain ⟨-, -, kt, -⟩ := Core.stageE_keep e3
  have gg : c.g = g := g1.trans safe1.grid
  obtain ⟨srcs', f', e4, d2, -, -, -⟩ := pulseAll_ok (g := c.g) c.t s1.srcs c.f (by rw [gg]; exact safe1.srcs) w1.f
  have e5 := pulseTry_of_all _ _ _ _ e4
  have e6 := mapM'_ready_or (step := Monitor.update c.g f' c.t) (Q := Monitor.Ready False g) s1.mons (fun m hm => by
    have := Monitor.update_ready (B := False) (g := c.g) d2 c.t (m := m) (by rw [gg]; exact safe1.mons m hm)
    rwa [gg] at this ⊢)
  obtain ⟨mons, e6, -⟩ : ∃ mons, mapM' (Monitor.update c.g f' c.t) s1.mons = .ok mons ∧ True := by
    rcases e6 with ⟨mons, e6, -⟩ | ⟨hb, -⟩
    · exact ⟨mons, e6, trivial⟩
    · exact hb.elim
  have e7 : Monitor.update c.g f' c.t (.point m) = .error (.ub .dangling) := by
    have := point_dangles f' c.t (by rw [kt, safe1.grid]; linarith) name pos tag htag freq
    unfold Monitor.update
    rw [← hm] at this
    simp only [this, Except.error_bind]
  have e8 := mapM'_last _ _ _ e6 e7
  have e9 : ({ s1 with mons := s1.mons ++ [.point m] } : Sim ℝ).step now .update = .ub .dangling := by
    show Sim.update now _ = _
    rw [Sim.update_idle now { s1 with mons := s1.mons ++ [.point m] } idle1]
    simp only [e3, tryM, e5, e8]
  rw [Sim.runOk, e2]
  simp only
  rw [Sim.runOk, e9]

/-! ## Non-trivial cases -/

/-- Sources, an incident wave, an object and another monitor may be there, and updates may have been made. -/
example (now : ℕ → ℝ) : ∃ s0, Sim.make now gEx "out.h5" = .ok s0 ∧
    s0.runOk now ([.addSource ⟨"a", .point .Ez ⟨((15 : ℤ) : ℝ), ((10 : ℤ) : ℝ)⟩, .continuous 1⟩, .update, .clearFields, .update] ++
      [.addMonitor (.point (.make "p" ⟨10, 10⟩ .Hx [1])), .update]) = .error (.ub .dangling) := by
  have hg : InGrid gEx (gEx.toGrid ⟨((15 : ℤ) : ℝ), ((10 : ℤ) : ℝ)⟩) := by
    rw [gEx_node]
    exact ⟨by norm_num, by rw [gEx_Nx]; norm_num, by norm_num, by rw [gEx_Ny]; norm_num⟩
  have hi : Inside False gEx [] [.addSource ⟨"a", .point .Ez ⟨((15 : ℤ) : ℝ), ((10 : ℤ) : ℝ)⟩, .continuous 1⟩, .update, .clearFields, .update] :=
    ⟨⟨by simp [Fields.IsComp], hg⟩, trivial⟩
  exact C43_dangling now gEx gEx_wide (by rw [gEx_dx]; norm_num) (by rw [gEx_dt]; norm_num) "out.h5" (by decide) _ hi
    (by simp [NoOutput]) "p" _ _ (by decide) _

/-- Fields on five by five nodes, the electric field being 4 everywhere. -/
noncomputable def flat4 : Flds ℝ := ⟨.const 5 5 4, .const 5 5 0, .const 5 5 0, .const 5 5 0, .const 5 5 0, .const 5 5 0, .const 5 5 0⟩

/-- Three updates at times 1, 2, 3 with the electric field 4 everywhere: the sum at frequency 0 of the averaged signal is 2 + 4 + 4. -/
example : ∃ m acc, PointMon.runsAt (⟨3, 2⟩ : V2 ℤ) ([1, 2, 3].map fun t => (flat4, t)) (PointMon.make "p" ⟨0, 0⟩ .Ez [0]).setF = .ok m ∧
    m.fourier.get "Ez" = .ok acc ∧ acc.re () 0 = 10 := by
  obtain ⟨m, h1, -, h3⟩ := C43_centred_partial "p" ⟨0, 0⟩ .Ez [0] 5 5 ⟨3, 2⟩ (by norm_num) (by norm_num) (by norm_num) (by norm_num)
    ([1, 2, 3].map fun t => (flat4, t))
    (by intro q hq; rw [List.mem_map] at hq; obtain ⟨t, -, rfl⟩ := hq; exact ⟨⟨rfl, rfl⟩, ⟨rfl, rfl⟩, ⟨rfl, rfl⟩, ⟨rfl, rfl⟩, ⟨rfl, rfl⟩, ⟨rfl, rfl⟩, ⟨rfl, rfl⟩⟩)
    (by simp)
  obtain ⟨acc, a1, a2, a3⟩ := h3 "Ez" (by simp [volKeys])
  refine ⟨m, acc, h1, a1, ?_⟩
  have := a3.re () (by rw [a2]; simp) 0 (by simp)
  simp only [Nat.cast_zero] at this
  rw [this]
  simp [cosSum, centred, Tensor.const, flat4]
  norm_num

end Qbox.Props
