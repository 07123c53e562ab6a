import Verif.Props.SasSize
import Verif.Props.Strategies

/-!
# C103 for the genetic algorithm with ageing
-/

set_option autoImplicit false
set_option linter.unusedSectionVars false

namespace Suprb

variable {K : Type} [Field K] [LinearOrder K] [IsStrictOrderedRing K]

theorem agedEvaluate_runs {ev : Eval K} {n : Nat} (hev : TotalEval ev n) (os : List (Aged K)) (h : ∀ o ∈ os, o.indiv.genome.length = n) :
    (Prog.each Aged.evaluate os).Runs ev fun os' => ∀ o ∈ os', EvLen ev n o.indiv :=
  Prog.Runs.mono (fun _ h => h.2)
    ((Prog.Runs.each Aged.evaluate os fun o ho => Prog.Runs.bind (evaluate_runs hev o.indiv (h o ho)) fun _ _ => Prog.Runs.ret trivial).and_sat
      (agedEvaluate_sat ev n os h))

theorem ageing_ok (size : Nat) (hs : 1 ≤ size) {ev : Eval K} {n : Nat} (pop : List (Aged K)) (h : ∀ o ∈ pop, EvLen ev n o.indiv) (hne : pop ≠ []) :
    ∃ parents, ageing size pop = .ok parents := by
  unfold ageing
  rw [if_pos ((allFitted_iff _).mpr fun σ hσ => by obtain ⟨o, ho, rfl⟩ := List.mem_map.mp hσ; exact evLen_fit (h o ho))]
  dsimp only
  cases hl : ((sortedDesc (fun o : Aged K => o.indiv.fitnessD) pop).take (size * 5)).getLast? with
  | none =>
    rw [List.getLast?_eq_none_iff, List.take_eq_nil_iff] at hl
    rcases hl with hl | hl
    · omega
    · exact absurd (sortedDesc_perm _ pop |>.symm.subset) (by rw [hl]; exact fun h => hne (List.eq_nil_iff_forall_not_mem.mpr fun a ha => absurd (h ha) List.not_mem_nil))
  | some last => exact ⟨_, rfl⟩

theorem sasStep_runs (cfg : SasCfg K) (hs : 1 ≤ cfg.initialSize) {ev : Eval K} {n : Nat} (hev : TotalEval ev n) (s : SasState K) (h : ∀ o ∈ s.pop, EvLen ev n o.indiv) (hne : s.pop ≠ [])
    (d : SasDraw K) : (sasStep cfg s d).Runs ev fun s' => ∀ o ∈ s'.pop, EvLen ev n o.indiv := by
  obtain ⟨parents, hp⟩ := ageing_ok cfg.initialSize hs s.pop h hne
  have hlen : ∀ o ∈ parents, o.indiv.genome.length = n := by
    intro o ho
    obtain ⟨o', ho', he⟩ := ageing_indivs _ _ _ hp o ho
    rw [he]; exact (h o' ho').1
  have hpairs : ∀ p ∈ pairs (parents.map Aged.indiv), p.1.genome.length = n ∧ p.2.genome.length = n := by
    intro p hp'
    obtain ⟨h1, h2⟩ := mem_pairs _ p hp'
    obtain ⟨o1, m1, e1⟩ := List.mem_map.mp h1
    obtain ⟨o2, m2, e2⟩ := List.mem_map.mp h2
    rw [← e1, ← e2]
    exact ⟨hlen o1 m1, hlen o2 m2⟩
  obtain ⟨cs, hcs, _⟩ := sagaChildren_ok (fun k b A B => crossoverA cfg.crossRate (d.cross k b).1 (d.cross k b).2 A B) n
    (fun k b A B hA hB => crossoverA_ok _ _ _ A B (hA.trans hB.symm)) 0 _ hpairs
  have hclen : AllLen n cs := sagaChildren_len _ n (fun k b A B C hA hB hC => crossoverA_len _ _ _ A B C n hA hB hC) 0 _ cs hpairs hcs
  unfold sasStep
  refine Prog.Runs.bind' (P := fun x => x = parents) (Prog.Runs.lift ⟨_, hp, rfl⟩) fun x hx => ?_
  subst hx
  refine Prog.Runs.bind' (P := fun x => x = cs) (Prog.Runs.lift ⟨_, hcs, rfl⟩) fun x hx => ?_
  subst hx
  refine Prog.Runs.bind' (agedEvaluate_runs hev _ ?_) fun pop hpop => Prog.Runs.ret hpop
  intro o ho
  rcases List.mem_append.mp ho with ho | ho
  · exact hlen o ho
  · obtain ⟨σ, hσ, rfl⟩ := List.mem_map.mp ho
    exact (gaMutate_spec cfg.mutRate d.flips _ n hclen).1 σ hσ

theorem sas_append (cfg : SasCfg K) (ev : Eval K) (ds : List (SasDraw K)) (d : SasDraw K) (pop : List (Aged K)) :
    (sas cfg (ds ++ [d]) pop).run ev = match (sas cfg ds pop).run ev with
      | .error e => .error e
      | .ok s => (sasStep cfg s d).run ev := by
  change ((Prog.each Aged.evaluate pop).bind fun pop => Prog.forEach (sasStep cfg) (ds ++ [d]) ⟨pop, []⟩).run ev =
    match ((Prog.each Aged.evaluate pop).bind fun pop => Prog.forEach (sasStep cfg) ds ⟨pop, []⟩).run ev with
      | .error e => .error e
      | .ok s => (sasStep cfg s d).run ev
  rw [Prog.run_bind, Prog.run_bind]
  cases (Prog.each Aged.evaluate pop).run ev with
  | error e => rfl
  | ok pop0 =>
    dsimp only
    rw [run_forEach_append, Prog.run_bind]
    cases (Prog.forEach (sasStep cfg) ds ⟨pop0, []⟩).run ev with
    | error e => rfl
    | ok s =>
      change ((sasStep cfg s d).bind (Prog.forEach (sasStep cfg) [])).run ev = (sasStep cfg s d).run ev
      rw [Prog.run_bind]
      cases (sasStep cfg s d).run ev <;> rfl

/-- C103 for the genetic algorithm with ageing (partial): a call ends without an error, unless everybody dies in a generation that is not the last one; then, and only then, the next selection raises an `IndexError`.
Missing: that the population never dies out, which is false (`C103_sas_refuted`, `C64_extinct_refuted`). -/
theorem C103_sas_partial (cfg : SasCfg K) (hs : 1 ≤ cfg.initialSize) (ev : Eval K) (n : Nat) (hev : TotalEval ev n) (pop : List (Aged K)) (hl : ∀ o ∈ pop, o.indiv.genome.length = n)
    (draws : List (SasDraw K)) :
    (∃ s, (sas cfg draws pop).run ev = .ok s ∧ ∀ ds d, ds ++ [d] <+: draws → ∀ s', (sas cfg ds pop).run ev = .ok s' → s'.pop ≠ []) ∨
    ((sas cfg draws pop).run ev = .error .indexError ∧ ∃ ds d, ds ++ [d] <+: draws ∧ ∃ s', (sas cfg ds pop).run ev = .ok s' ∧ s'.pop = []) := by
  suffices hmain : (∃ s, (sas cfg draws pop).run ev = .ok s ∧ (∀ o ∈ s.pop, EvLen ev n o.indiv) ∧ ∀ ds d, ds ++ [d] <+: draws → ∀ s', (sas cfg ds pop).run ev = .ok s' → s'.pop ≠ []) ∨
    ((sas cfg draws pop).run ev = .error .indexError ∧ ∃ ds d, ds ++ [d] <+: draws ∧ ∃ s', (sas cfg ds pop).run ev = .ok s' ∧ s'.pop = []) by
    rcases hmain with ⟨s, h1, _, h2⟩ | h
    · exact Or.inl ⟨s, h1, h2⟩
    · exact Or.inr h
  induction draws using List.reverseRecOn with
  | nil =>
    left
    obtain ⟨pop', h1, h2⟩ := agedEvaluate_runs hev pop hl
    refine ⟨⟨pop', []⟩, ?_, h2, fun ds d h => ?_⟩
    · change ((Prog.each Aged.evaluate pop).bind fun pop => Prog.forEach (sasStep cfg) [] ⟨pop, []⟩).run ev = _
      rw [Prog.run_bind, h1]
      rfl
    · have := h.length_le
      simp at this
  | append_singleton ds d ih =>
    have hpre : ∀ ds' d', ds' ++ [d'] <+: ds ++ [d] → ds' ++ [d'] <+: ds ∨ ds' = ds := by
      intro ds' d' h
      rcases List.prefix_concat_iff.mp h with h | h
      · exact Or.inr (List.append_inj_left' h rfl)
      · exact Or.inl h
    rcases ih with ⟨s, h1, h2, h3⟩ | ⟨h1, ds', d', h2, s', h3, h4⟩
    · rw [sas_append, h1]
      dsimp only
      by_cases hne : s.pop = []
      · right
        refine ⟨?_, ds, d, List.prefix_refl _, s, h1, hne⟩
        have : ageing cfg.initialSize s.pop = .error .indexError := by
          rw [hne]
          unfold ageing sortedDesc
          simp [allFitted]
        unfold sasStep
        change ((Prog.lift (ageing cfg.initialSize s.pop)).bind _).run ev = _
        rw [this]
        rfl
      · left
        obtain ⟨s', g1, g2⟩ := sasStep_runs cfg hs hev s h2 hne d
        refine ⟨s', g1, g2, fun ds' d' hp s'' hs'' => ?_⟩
        rcases hpre ds' d' hp with hp | rfl
        · exact h3 ds' d' hp s'' hs''
        · rw [h1] at hs''; cases hs''; exact hne
    · right
      rw [sas_append, h1]
      exact ⟨rfl, ds', d', h2.trans (List.prefix_append _ _), s', h3, h4⟩

/-- C103 for the genetic algorithm with ageing (partial): a call that starts with at least two new solutions completes with a non-empty population if no population reaches five times the initial size, whatever the
random numbers and fitness values. Missing: a single solution (`C103_sas_refuted`) and larger populations (`C64_extinct_refuted`). -/
theorem C103_sas_small_partial (cfg : SasCfg K) (hs : 1 ≤ cfg.initialSize) (ev : Eval K) (n : Nat) (hev : TotalEval ev n) (pop : List (Aged K)) (hl : ∀ o ∈ pop, o.indiv.genome.length = n)
    (h2 : 2 ≤ pop.length) (hnew : ∀ o ∈ pop, o.age = 3) (draws : List (SasDraw K))
    (hsmall : ∀ ds, ds <+: draws → ∀ s, (sas cfg ds pop).run ev = .ok s → s.pop.length < cfg.initialSize * 5) :
    ∃ s, (sas cfg draws pop).run ev = .ok s ∧ s.pop ≠ [] := by
  have hy : 2 ≤ youngCount pop := by
    unfold youngCount
    rw [List.countP_eq_length.mpr fun o ho => by simp [hnew o ho]]
    exact h2
  have hsizes : ∀ ds, ds <+: draws → ∀ s, (sas cfg ds pop).run ev = .ok s → ∀ m ∈ s.sizes, m < cfg.initialSize * 5 := by
    intro ds
    induction ds using List.reverseRecOn with
    | nil =>
      intro _ s h m hm
      obtain ⟨pop', h1, _⟩ := agedEvaluate_runs hev pop hl
      change ((Prog.each Aged.evaluate pop).bind fun pop => Prog.forEach (sasStep cfg) [] ⟨pop, []⟩).run ev = _ at h
      rw [Prog.run_bind, h1] at h
      cases h
      cases hm
    | append_singleton ds d ih =>
      intro hp s h m hm
      obtain ⟨s0, h0, hstep⟩ := sas_snoc cfg ev ds d pop s h
      have hp0 : ds <+: draws := (List.prefix_append _ _).trans hp
      have hsz : s.sizes = s0.sizes ++ [s0.pop.length] := by
        have : (sasStep cfg s0 d).Sat ev (fun _ => True) fun s' => s'.sizes = s0.sizes ++ [s0.pop.length] := by
          unfold sasStep
          refine Prog.Sat.bind' (P := fun _ => True) (Prog.Sat.lift fun _ _ => trivial) fun _ _ => ?_
          refine Prog.Sat.bind' (P := fun _ => True) (Prog.Sat.lift fun _ _ => trivial) fun _ _ => ?_
          exact Prog.Sat.bind' (P := fun _ => True) (Prog.Sat.trivial ev _) fun _ _ => rfl
        exact this.run s hstep
      rw [hsz] at hm
      rcases List.mem_append.mp hm with hm | hm
      · exact ih hp0 s0 h0 m hm
      · rw [List.mem_singleton.mp hm]; exact hsmall ds hp0 s0 h0
  rcases C103_sas_partial cfg hs ev n hev pop hl draws with ⟨s, h1, _⟩ | ⟨_, ds, d, hp, s', h3, h4⟩
  · exact ⟨s, h1, (C64_nonempty_partial cfg draws ev pop hy s h1 (hsizes draws (List.prefix_refl _) s h1)).2⟩
  · have hp0 : ds <+: draws := (List.prefix_append _ _).trans hp
    exact absurd h4 (C64_nonempty_partial cfg ds ev pop hy s' h3 (hsizes ds hp0 s' h3)).2

section Examples

/-- Two new solutions and an initial size of two: in two generations, no population reaches ten solutions. -/
example : ∃ s, (sas (sasCfg 2) [sasDraw [6, 6], sasDraw [1, 3, 5, 2]] [⟨⟨sasGenome 4, none⟩, 3⟩, ⟨⟨sasGenome 5, none⟩, 3⟩]).run sasEval = .ok s ∧ s.pop ≠ [] := by
  refine C103_sas_small_partial (sasCfg 2) (by decide) sasEval 3 (fun g _ => ⟨_, rfl⟩) _ (by intro o ho; simp at ho; rcases ho with rfl | rfl <;> rfl) (by decide)
    (by intro o ho; simp at ho; rcases ho with rfl | rfl <;> rfl) _ ?_
  have key : ∀ ds ∈ [[], [sasDraw [6, 6]], [sasDraw [6, 6], sasDraw [1, 3, 5, 2]]],
      (sasFits ds [⟨⟨sasGenome 4, none⟩, 3⟩, ⟨⟨sasGenome 5, none⟩, 3⟩]).length < 10 := by
    intro ds hds
    simp only [List.mem_cons, List.not_mem_nil, or_false] at hds
    rcases hds with rfl | rfl | rfl <;> decide +kernel
  intro ds hp s h
  have hmem : ds ∈ [[], [sasDraw [6, 6]], [sasDraw [6, 6], sasDraw [1, 3, 5, 2]]] := by
    have := (List.mem_inits ds _).mpr hp
    simpa [List.inits] using this
  have := key ds hmem
  unfold sasFits at this
  rw [h] at this
  simpa [sasCfg] using this

/-- The other case of `C103_sas_partial`: one solution dies in the second generation, the third one fails. -/
example : (match (sas (sasCfg 2) [sasDraw [], sasDraw [], sasDraw []] [⟨⟨sasGenome 4, none⟩, 3⟩]).run sasEval with
    | .error e => decide (e = .indexError)
    | .ok _ => false) = true := by decide +kernel

end Examples

end Suprb
