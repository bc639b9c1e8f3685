import Verif.Lemmas.FileResults
import Verif.Props.FileProps

/-! # C95: results that have not been written can be written -/

namespace Qbox.Props
open Qbox Scalar Spec

variable {K : Type} [Scalar K]

theorem compute_data {g : Grid K} {m : Monitor K} {r : Quantity K} {b : H5Obj K} (h : m.compute g r = some (.ok b)) : b ≠ .group ∧ ∀ q, b ≠ .ref q := by
  have key : ∀ y, m.compute g r = some y → y = .ok b → b ≠ .group ∧ ∀ q, b ≠ .ref q := by
    intro y hy hb
    cases m <;> cases r <;> unfold Monitor.compute at hy <;> first
      | cases hy; done
      | (cases hy; obtain ⟨S, -, hb⟩ := (Except.bind_ok ..).mp hb; cases hb; refine ⟨fun e => ?_, fun p e => ?_⟩ <;> first | cases e | (unfold forceRows at e; cases e))
  exact key _ h rfl

/-- **C95.** After any program, also one with calls that threw: spectra, quantities of monitors and the flux of the incident wave can be written, if they can be computed and no
call of the program wrote results to the same place. The call ends normally, the file has the results, and the simulation is unchanged. -/
theorem C95_first (now : ℕ → ℝ) (g : Grid K) (fn : String) (w0 w : World K) (cs : List (Call K)) (h0 : World.make now g fn = .ok w0) (hn : NewMonitors cs)
    (h : w0.run now cs = .ok w) (c : Call K) (hc : Computable w c)
    (hnew : ∀ pre c' post wp, cs = pre ++ c' :: post → w0.run now pre = .ok wp → ∀ q ∈ results wp c', q ∉ results w c) :
    ∃ w', w.step now c = .ok w' ∧ w'.sim = w.sim ∧ ∀ q ∈ results w c, (w'.tree.at q).isSome := by
  have inv := World.run_results (World.make_results h0) hn h
  have no : ∀ q ∈ results w c, ¬ (False ∨ History now w0 cs q) := by
    rintro q hq (k | ⟨pre, c', post, wp, e1, e2, e3⟩)
    · exact k
    · exact hnew pre c' post wp e1 e2 q e3 hq
  have top : ∀ {a b : String}, ∀ e ∈ (groups3 "monitors" a b : List (Path × H5Obj K)), e.2 = .group ∧ TopPath e.1 := by
    intro a b e he
    simp only [groups3, List.mem_cons, List.not_mem_nil, or_false] at he
    rcases he with rfl | rfl | rfl <;> exact ⟨rfl, .inl ⟨_, rfl, by simp⟩⟩
  have three : ∀ {a b : String}, (groups3 "monitors" a b : List (Path × H5Obj K)).Pairwise (fun e e' => e.1 ≠ e'.1 ∨ (e.2 = .group ∧ e'.2 = .group)) := by
    intro a b
    refine List.Pairwise.imp_of_mem (fun he he' _ => .inr ⟨(top _ he).1, (top _ he').1⟩) (List.pairwise_of_forall (fun _ _ => trivial) : List.Pairwise (fun _ _ => True) _)
  cases c with
  | op o => exact hc.elim
  | addDynamic o => exact hc.elim
  | writeCurrent i => exact hc.elim
  | writeSpectra i =>
    cases hm : w.sim.mons[i]? with
    | none => exact ⟨w, by unfold World.step; simp only [hm], rfl, by simp [results, hm]⟩
    | some m =>
      obtain ⟨l, e1, e2, e3⟩ := m.spectra_entries
      obtain ⟨n1, n2⟩ := inv.mons m (List.mem_of_getElem? hm)
      have rs : results w (.writeSpectra i) = (recorded m).map fun x => m.path ++ [x] := by simp only [results, hm]
      have ok : (w.tree.puts m.spectra).2 = true := by
        rw [e1]
        refine inv.writes (fun e he => ?_) (List.pairwise_append.mpr ⟨three, ?_, fun a ha b hb => .inl ?_⟩) fun e he q => ?_
        · rcases List.mem_append.mp he with he | he
          · exact .inl (top e he)
          · obtain ⟨x, hx, rfl⟩ := List.mem_map.mp he
            have hx' : x.1 ∈ recorded m := by rw [← e2]; exact List.mem_map.mpr ⟨x, hx, rfl⟩
            exact .inr ⟨.inl ⟨_, _, _, rfl, n2 _ hx'⟩, no _ (by rw [rs]; exact List.mem_map.mpr ⟨_, hx', rfl⟩)⟩
        · rw [← e2] at n1
          rw [List.pairwise_map]
          exact (List.pairwise_map.mp n1).imp fun hne => .inl fun k => hne (by simpa using k)
        · obtain ⟨x, hx, rfl⟩ := List.mem_map.mp hb
          intro k
          rcases (top a ha).2 with ⟨l, k1, k2⟩ | k1 | k1
          · rw [k1] at k
            obtain rfl := (List.cons.inj k).2
            simp at k2
          · rw [k1] at k; exact absurd (List.cons.inj k).1 (by decide)
          · rw [k1] at k; exact absurd (List.cons.inj k).1 (by decide)
        · rcases List.mem_append.mp he with he | he
          · rw [(top e he).1]; simp
          · obtain ⟨x, hx, rfl⟩ := List.mem_map.mp he
            exact e3 x hx q
      refine ⟨{ w with tree := (w.tree.puts m.spectra).1 }, ?_, rfl, fun q hq => ?_⟩
      · unfold World.step World.write
        simp only [hm, ok, if_true]
      · rw [rs] at hq
        obtain ⟨x, hx, rfl⟩ := List.mem_map.mp hq
        rw [← e2] at hx
        obtain ⟨y, hy, rfl⟩ := List.mem_map.mp hx
        rw [Tree.puts_mem _ ok (m.path ++ [y.1], y.2) (by rw [e1]; exact List.mem_append_right _ (List.mem_map.mpr ⟨y, hy, rfl⟩))]
        rfl
  | report i r =>
    cases hm : w.sim.mons[i]? with
    | none => exact ⟨w, by unfold World.step; simp only [hm], rfl, by simp [results, hm]⟩
    | some m =>
      cases hx : m.compute w.sim.core.g r with
      | none => exact ⟨w, by unfold World.step; simp only [hm, hx], rfl, by simp [results, hm, hx]⟩
      | some x =>
        obtain ⟨v, rfl⟩ := hc m x hm hx
        have rs : results w (.report i r) = [m.path ++ [r.name]] := by simp [results, hm, hx]
        have data : v ≠ .group ∧ ∀ q, v ≠ .ref q := compute_data hx
        have ok : (w.tree.puts (m.groups ++ [(m.path ++ [r.name], v)])).2 = true := by
          refine inv.writes (fun e he => ?_) (List.pairwise_append.mpr ⟨three, List.pairwise_singleton _ _, fun a ha b hb => .inl ?_⟩) fun e he q => ?_
          · rcases List.mem_append.mp he with he | he
            · exact .inl (top e he)
            · rw [List.mem_singleton.mp he]
              exact .inr ⟨.inl ⟨_, _, _, rfl, r.name_result⟩, no _ (by rw [rs]; simp)⟩
          · rw [List.mem_singleton.mp hb]
            intro k
            rcases (top a ha).2 with ⟨l, k1, k2⟩ | k1 | k1
            · rw [k1] at k
              obtain rfl := (List.cons.inj k).2
              simp at k2
            · rw [k1] at k; exact absurd (List.cons.inj k).1 (by decide)
            · rw [k1] at k; exact absurd (List.cons.inj k).1 (by decide)
          · rcases List.mem_append.mp he with he | he
            · rw [(top e he).1]; simp
            · rw [List.mem_singleton.mp he]
              exact data.2 q
        refine ⟨{ w with tree := (w.tree.puts (m.groups ++ [(m.path ++ [r.name], v)])).1 }, ?_, rfl, fun q hq => ?_⟩
        · unfold World.step World.write tryM
          simp only [hm, hx, ok, if_true]
        · rw [rs] at hq
          rw [List.mem_singleton.mp hq, Tree.puts_mem _ ok (m.path ++ [r.name], v) (by simp)]
          rfl
  | tfsfFlux =>
    cases hx : w.sim.core.tfsf with
    | none => exact ⟨w, by unfold World.step; simp only [hx], rfl, by simp [results, hx]⟩
    | some x =>
      obtain ⟨S, hS⟩ := hc x hx
      have rs : results w (.tfsfFlux) = [["sources", "tfsf", "flux"]] := by simp [results, hx]
      have ok : (w.tree.puts [(["sources", "tfsf"], .group), (["sources", "tfsf", "flux"], .nums (overFreq S.n S.val))]).2 = true := by
        refine inv.writes (fun e he => ?_) (by simp) fun e he q => ?_
        · simp only [List.mem_cons, List.not_mem_nil, or_false] at he
          rcases he with rfl | rfl
          · exact .inl ⟨rfl, .inr (.inr rfl)⟩
          · exact .inr ⟨.inr rfl, no _ (by rw [rs]; simp)⟩
        · simp only [List.mem_cons, List.not_mem_nil, or_false] at he
          rcases he with rfl | rfl <;> simp
      refine ⟨{ w with tree := (w.tree.puts [(["sources", "tfsf"], .group), (["sources", "tfsf", "flux"], .nums (overFreq S.n S.val))]).1 }, ?_, rfl, fun q hq => ?_⟩
      · unfold World.step World.write tryM
        simp only [hx, hS, ok, if_true]
      · rw [rs] at hq
        rw [List.mem_singleton.mp hq, Tree.puts_mem _ ok (["sources", "tfsf", "flux"], .nums (overFreq S.n S.val)) (by simp)]
        rfl

end Qbox.Props
