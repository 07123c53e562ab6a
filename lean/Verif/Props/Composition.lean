import Verif.Lemmas.Composition
import Verif.Props.Solution
import Mathlib.Data.List.Range
import Mathlib.Algebra.BigOperators.Group.List.Basic

/-!
# Claims C41, C43–C48: archive, genetic algorithm and its operators
-/

set_option autoImplicit false
set_option linter.unusedSectionVars false

namespace Suprb

section Heap

variable {K : Type} [Field K] [LinearOrder K]

/-- No two solution objects use the same genome array, and all arrays exist. -/
def SHeap.NoSharing (h : SHeap K) : Prop :=
  (∀ (r r' : Nat) (o o' : SolObj K), h.objs[r]? = some o → h.objs[r']? = some o' → o.genomeAt = o'.genomeAt → r = r') ∧
    ∀ o ∈ h.objs, o.genomeAt < h.arrays.length

theorem view_alloc_old (h : SHeap K) (τ σ : Indiv K) (r : Nat) (hr : h.view r = some σ) : (h.alloc τ).1.view r = some σ := by
  unfold SHeap.view at hr ⊢
  cases ho : h.objs[r]? with
  | none => rw [ho] at hr; cases hr
  | some o =>
    rw [ho] at hr
    cases hg : h.arrays[o.genomeAt]? with
    | none => simp only [hg] at hr; cases hr
    | some g =>
      simp only [hg] at hr
      have h1 : (h.alloc τ).1.objs[r]? = some o := by
        simp only [SHeap.alloc]
        rw [List.getElem?_append_left (List.getElem?_eq_some_iff.mp ho).1, ho]
      have h2 : (h.alloc τ).1.arrays[o.genomeAt]? = some g := by
        simp only [SHeap.alloc]
        rw [List.getElem?_append_left (List.getElem?_eq_some_iff.mp hg).1, hg]
      simp only [h1, h2]
      exact hr

theorem view_alloc_new (h : SHeap K) (τ : Indiv K) : (h.alloc τ).1.view (h.alloc τ).2 = some τ := by
  simp [SHeap.view, SHeap.alloc]

theorem alloc_noSharing (h : SHeap K) (τ : Indiv K) (hn : h.NoSharing) : (h.alloc τ).1.NoSharing := by
  obtain ⟨h1, h2⟩ := hn
  refine ⟨?_, ?_⟩
  · intro r r' o o' ho ho' he
    simp only [SHeap.alloc, List.getElem?_append] at ho ho'
    split at ho <;> split at ho'
    · exact h1 r r' o o' ho ho' he
    · have := h2 o (List.mem_of_getElem? ho)
      have : o'.genomeAt = h.arrays.length := by
        rw [List.getElem?_singleton] at ho'
        split at ho' <;> cases ho'
        rfl
      omega
    · have := h2 o' (List.mem_of_getElem? ho')
      have : o.genomeAt = h.arrays.length := by
        rw [List.getElem?_singleton] at ho
        split at ho <;> cases ho
        rfl
      omega
    · rw [List.getElem?_singleton] at ho ho'
      split at ho <;> split at ho'
      · omega
      · cases ho'
      · cases ho
      · cases ho
  · intro o ho
    simp only [SHeap.alloc, List.mem_append, List.mem_singleton, List.length_append, List.length_singleton] at ho ⊢
    rcases ho with ho | rfl
    · have := h2 o ho; omega
    · simp

theorem run_noSharing (h : SHeap K) (c : HCmd K) (hn : h.NoSharing) : (c.run h).NoSharing := by
  cases c with
  | setSt r s =>
    obtain ⟨h1, h2⟩ := hn
    have key : ∀ (i : Nat) (o : SolObj K), (h.objs.modify r fun o => { o with st := some s })[i]? = some o →
        ∃ o', h.objs[i]? = some o' ∧ o'.genomeAt = o.genomeAt := by
      intro i o ho
      rw [List.getElem?_modify] at ho
      cases hi : h.objs[i]? with
      | none => rw [hi] at ho; cases ho
      | some o' =>
        rw [hi] at ho
        simp only [Option.map_eq_map, Option.map_some, Option.some.injEq] at ho
        refine ⟨o', rfl, ?_⟩
        rw [← ho]; split <;> rfl
    refine ⟨?_, ?_⟩
    · intro i j o o' ho ho' he
      obtain ⟨p, hp, hp'⟩ := key i o ho
      obtain ⟨q, hq, hq'⟩ := key j o' ho'
      exact h1 i j p q hp hq (by omega)
    · intro o ho
      obtain ⟨i, hi⟩ := List.mem_iff_getElem?.mp ho
      obtain ⟨p, hp, hp'⟩ := key i o hi
      have := h2 p (List.mem_of_getElem? hp)
      simpa [HCmd.run, hp'] using this
  | setGenome r g =>
    obtain ⟨h1, h2⟩ := hn
    have key : ∀ (i : Nat) (o : SolObj K), (h.objs.modify r fun o => { o with genomeAt := h.arrays.length })[i]? = some o →
        (i = r ∧ o.genomeAt = h.arrays.length) ∨ (h.objs[i]? = some o ∧ i ≠ r) := by
      intro i o ho
      rw [List.getElem?_modify] at ho
      by_cases hir : r = i
      · left
        cases hi : h.objs[i]? with
        | none => rw [hi] at ho; cases ho
        | some o' =>
          rw [hi] at ho
          simp only [Option.map_eq_map, Option.map_some, Option.some.injEq, hir, if_true] at ho
          exact ⟨hir.symm, by rw [← ho]⟩
      · right
        cases hi : h.objs[i]? with
        | none => rw [hi] at ho; cases ho
        | some o' =>
          rw [hi] at ho
          simp only [Option.map_eq_map, Option.map_some, Option.some.injEq, hir, if_false] at ho
          exact ⟨by rw [← ho], fun h => hir h.symm⟩
    refine ⟨?_, ?_⟩
    · intro i j o o' ho ho' he
      rcases key i o ho with ⟨hi, hi'⟩ | ⟨hi, hi'⟩ <;> rcases key j o' ho' with ⟨hj, hj'⟩ | ⟨hj, hj'⟩
      · omega
      · have := h2 o' (List.mem_of_getElem? hj); omega
      · have := h2 o (List.mem_of_getElem? hi); omega
      · exact h1 i j o o' hi hj he
    · intro o ho
      obtain ⟨i, hi⟩ := List.mem_iff_getElem?.mp ho
      simp only [HCmd.run, List.length_append, List.length_singleton]
      rcases key i o hi with ⟨_, h'⟩ | ⟨h', _⟩
      · omega
      · have := h2 o (List.mem_of_getElem? h'); omega
  | write r i b =>
    unfold HCmd.run
    split
    · rename_i c e1 e2; cases e2
    · rename_i c e1 e2; cases e2
    · rename_i c r' i' b' heq
      cases heq
      split
      · exact hn
      · obtain ⟨h1, h2⟩ := hn
        exact ⟨h1, by simpa using h2⟩
    · rename_i c e1 e2; cases e2
  | new σ => exact alloc_noSharing h σ hn

/-- An assignment to another object does not change what is seen through `r`. -/
theorem run_view (h : SHeap K) (c : HCmd K) (hn : h.NoSharing) (r : Nat) (σ : Indiv K) (hv : h.view r = some σ)
    (hc : c.target ≠ some r) : (c.run h).view r = some σ := by
  cases c with
  | setSt r' s =>
    have hne : ¬ r' = r := fun e => hc (by rw [HCmd.target, e])
    unfold SHeap.view at hv ⊢
    simp only [HCmd.run, List.getElem?_modify, hne, if_false, Option.map_eq_map, Option.map_id']
    exact hv
  | setGenome r' g =>
    have hne : ¬ r' = r := fun e => hc (by rw [HCmd.target, e])
    unfold SHeap.view at hv ⊢
    simp only [HCmd.run, List.getElem?_modify, hne, if_false, Option.map_eq_map, Option.map_id']
    cases ho : h.objs[r]? with
    | none => rw [ho] at hv; cases hv
    | some o =>
      rw [ho] at hv
      dsimp only at hv ⊢
      rw [List.getElem?_append_left (hn.2 o (List.mem_of_getElem? ho))]
      exact hv
  | write r' i b =>
    have hne : ¬ r' = r := fun e => hc (by rw [HCmd.target, e])
    unfold SHeap.view at hv ⊢
    simp only [HCmd.run]
    cases ho' : h.objs[r']? with
    | none => exact hv
    | some o' =>
      dsimp only
      cases ho : h.objs[r]? with
      | none => rw [ho] at hv; cases hv
      | some o =>
        rw [ho] at hv
        dsimp only at hv ⊢
        have : ¬ o'.genomeAt = o.genomeAt := fun e => hne (hn.1 r' r o' o ho' ho e)
        rw [List.getElem?_modify]
        simp only [this, if_false, Option.map_eq_map, Option.map_id']
        exact hv
  | new τ => exact view_alloc_old h τ σ r hv

theorem foldl_run_view (cmds : List (HCmd K)) (h : SHeap K) (hn : h.NoSharing) (r : Nat) (σ : Indiv K) (hv : h.view r = some σ)
    (hc : ∀ c ∈ cmds, c.target ≠ some r) : (cmds.foldl HCmd.run h).view r = some σ := by
  induction cmds generalizing h with
  | nil => exact hv
  | cons c cs ih =>
    rw [List.foldl_cons]
    exact ih _ (run_noSharing h c hn) (run_view h c hn r σ hv (hc c (List.mem_cons_self ..)))
      fun c' hc' => hc c' (List.mem_cons_of_mem _ hc')

theorem view_lt (h : SHeap K) (r : Nat) (σ : Indiv K) (hv : h.view r = some σ) : r < h.objs.length := by
  unfold SHeap.view at hv
  cases ho : h.objs[r]? with
  | none => rw [ho] at hv; cases hv
  | some o => exact (List.getElem?_eq_some_iff.mp ho).1

theorem clone_spec (h h' : SHeap K) (r r' : Nat) (hc : h.clone r = .ok (h', r')) :
    ∃ σ s, h.view r = some σ ∧ σ.st = some s ∧ h' = (h.alloc σ).1 ∧ r' = h.objs.length ∧ h'.view r' = some σ := by
  unfold SHeap.clone at hc
  split at hc
  · cases hc
  · rename_i σ hσ
    split at hc
    · cases hc
    · rename_i s hs
      have e : ({ genome := σ.genome, st := some s } : Indiv K) = σ := by cases σ; simp_all
      rw [e] at hc
      cases hc
      exact ⟨σ, s, hσ, hs, rfl, rfl, view_alloc_new h σ⟩

theorem pyMax_map {α β F : Type} [LinearOrder F] (key : β → F) (f : α → β) (l : List α) :
    (pyMax (fun a => key (f a)) l).map f = pyMax key (l.map f) := by
  cases l with
  | nil => rfl
  | cons a as =>
    simp only [pyMax, List.map_cons, Option.map_some, Option.some.injEq]
    induction as generalizing a with
    | nil => rfl
    | cons b bs ih =>
      rw [List.foldl_cons, List.map_cons, List.foldl_cons, ih]
      congr 1
      split <;> rfl

theorem mapM_option_zip {α β : Type} (f : α → Option β) (l : List α) (l' : List β) (h : l.mapM f = some l') :
    l'.length = l.length ∧ ∀ p ∈ l.zip l', f p.1 = some p.2 := by
  induction l generalizing l' with
  | nil => cases h; simp
  | cons a as ih =>
    rw [List.mapM_cons] at h
    cases ha : f a with
    | none => rw [ha] at h; cases h
    | some b =>
      rw [ha] at h
      cases has : as.mapM f with
      | none => rw [has] at h; cases h
      | some bs =>
        rw [has] at h; cases h
        obtain ⟨h1, h2⟩ := ih bs has
        refine ⟨by simp [h1], ?_⟩
        intro p hp
        rcases List.mem_cons.mp hp with rfl | hp
        · exact ha
        · exact h2 p hp

/-- The heap version of `max` finds an object showing the value the value version finds. -/
theorem fittest_spec (h : SHeap K) (pop : List Nat) (ps : List (Indiv K)) (hps : pop.mapM h.view = some ps) (r : Nat)
    (hr : h.fittest pop = .ok r) : r ∈ pop ∧ ∃ β, h.view r = some β ∧ fittestIndiv ps = .ok β := by
  unfold SHeap.fittest at hr
  rw [hps] at hr
  dsimp only at hr
  split at hr
  · rename_i hf
    obtain ⟨hlen, hzip⟩ := mapM_option_zip _ _ _ hps
    have hm := pyMax_map Indiv.fitnessD (Prod.snd : Nat × Indiv K → Indiv K) (pop.zip ps)
    rw [List.map_snd_zip (by omega)] at hm
    cases hx : pyMax (fun p : Nat × Indiv K => p.2.fitnessD) (pop.zip ps) with
    | none => rw [hx] at hr; cases hr
    | some p =>
      rw [hx] at hr hm
      cases hr
      have hp := (pyMax_spec _ _ _ hx).1
      refine ⟨(List.of_mem_zip hp).1, p.2, hzip p hp, ?_⟩
      unfold fittestIndiv
      rw [if_pos hf, ← hm]
      rfl
  · cases hr

theorem mapM_option_of_view (h h' : SHeap K) (refs : List Nat) (vs : List (Indiv K)) (hv : refs.mapM h.view = some vs)
    (hold : ∀ r σ, h.view r = some σ → h'.view r = some σ) : refs.mapM h'.view = some vs := by
  induction refs generalizing vs with
  | nil => exact hv
  | cons a as ih =>
    rw [List.mapM_cons] at hv ⊢
    cases ha : h.view a with
    | none => rw [ha] at hv; cases hv
    | some b =>
      rw [ha] at hv
      cases has : as.mapM h.view with
      | none => rw [has] at hv; cases hv
      | some bs =>
        rw [has] at hv; cases hv
        rw [hold a b ha, ih bs has]; rfl

/-- The update of the archive on the heap shows exactly what the update on values computes, changes no existing object, and afterwards no archived
object belongs to the population. -/
theorem hArchiveUpdate_refines (h h' : SHeap K) (arch arch' pop : List Nat) (as ps : List (Indiv K)) (hn : h.NoSharing)
    (has : arch.mapM h.view = some as) (hps : pop.mapM h.view = some ps) (hdis : ∀ r ∈ pop, r ∉ arch)
    (hu : hArchiveUpdate h arch pop = .ok (h', arch')) :
    h'.NoSharing ∧ (∀ r σ, h.view r = some σ → h'.view r = some σ) ∧ (∀ r ∈ pop, r ∉ arch') ∧
      (∀ r ∈ arch', r < h'.objs.length) ∧ ∃ as', arch'.mapM h'.view = some as' ∧ archiveUpdate as ps = .ok as' := by
  have hpoplt : ∀ r ∈ pop, r < h.objs.length := by
    intro r hr
    obtain ⟨hlen, hzip⟩ := mapM_option_zip _ _ _ hps
    obtain ⟨i, hi, rfl⟩ := List.mem_iff_getElem.mp hr
    have hmem : (pop[i], ps[i]'(by omega)) ∈ pop.zip ps := by
      rw [List.mem_iff_getElem]
      exact ⟨i, by simp; omega, by simp⟩
    exact view_lt h _ _ (hzip _ hmem)
  have harchlt : ∀ r ∈ arch, r < h.objs.length := by
    intro r hr
    obtain ⟨hlen, hzip⟩ := mapM_option_zip _ _ _ has
    obtain ⟨i, hi, rfl⟩ := List.mem_iff_getElem.mp hr
    have hmem : (arch[i], as[i]'(by omega)) ∈ arch.zip as := by
      rw [List.mem_iff_getElem]
      exact ⟨i, by simp; omega, by simp⟩
    exact view_lt h _ _ (hzip _ hmem)
  unfold hArchiveUpdate at hu
  split at hu
  · cases hu
  · rename_i best hbest
    obtain ⟨hbm, β, hβ, hval⟩ := fittest_spec h pop ps hps best hbest
    unfold archiveUpdate
    rw [hval]
    dsimp only
    split at hu
    · have : as = [] := by
        have := (mapM_option_zip _ _ _ has).1
        exact List.length_eq_zero_iff.mp (by simpa using this)
      subst this
      split at hu
      · cases hu
      · rename_i h1 r1 hcl
        cases hu
        obtain ⟨σ, s, hσ, hs, rfl, rfl, hv⟩ := clone_spec _ _ _ _ hcl
        rw [hβ] at hσ; cases hσ
        refine ⟨alloc_noSharing h _ hn, fun r σ hr => view_alloc_old h _ _ r hr, ?_, ?_, ?_⟩
        · intro r hr hm
          rw [List.mem_singleton] at hm
          have := hpoplt r hr; omega
        · intro r hr
          rw [List.mem_singleton] at hr
          subst hr
          simp [SHeap.alloc]
        · dsimp only
          rw [Indiv.clone_ok β s hs]
          refine ⟨[β], ?_, rfl⟩
          simp [List.mapM_cons, hv]
    · rename_i a rest
      rw [List.mapM_cons] at has
      cases ha : h.view a with
      | none => rw [ha] at has; cases has
      | some α =>
        rw [ha] at has
        cases hrest : rest.mapM h.view with
        | none => rw [hrest] at has; cases has
        | some rs =>
          rw [hrest] at has
          cases has
          rw [ha, hβ] at hu
          dsimp only at hu
          dsimp only
          cases hst : α.st with
          | none => rw [hst] at hu; cases hu
          | some s =>
            rw [hst] at hu
            dsimp only at hu ⊢
            by_cases hlt : s.fitness < β.fitnessD
            · rw [if_pos hlt] at hu ⊢
              split at hu
              · cases hu
              · rename_i h1 r1 hcl
                cases hu
                obtain ⟨σ, s', hσ, hs, rfl, rfl, hv⟩ := clone_spec _ _ _ _ hcl
                rw [hβ] at hσ; cases hσ
                have hold := fun r σ hr => view_alloc_old h β σ r hr
                refine ⟨alloc_noSharing h _ hn, hold, ?_, ?_, ?_⟩
                · intro r hr hm
                  rcases List.mem_append.mp hm with hm | hm
                  · exact hdis r hr (List.mem_cons_of_mem _ hm)
                  · rw [List.mem_singleton] at hm
                    have := hpoplt r hr; omega
                · intro r hr
                  simp only [SHeap.alloc, List.length_append, List.length_singleton]
                  rcases List.mem_append.mp hr with hr | hr
                  · have := harchlt r (List.mem_cons_of_mem _ hr); omega
                  · rw [List.mem_singleton] at hr; omega
                · rw [Indiv.clone_ok β s' hs]
                  refine ⟨rs ++ [β], ?_, rfl⟩
                  rw [List.mapM_append, mapM_option_of_view h _ rest rs hrest hold]
                  simp [List.mapM_cons, hv]
            · rw [if_neg hlt] at hu ⊢
              cases hu
              refine ⟨hn, fun r σ hr => hr, hdis, harchlt, α :: rs, ?_, rfl⟩
              rw [List.mapM_cons, ha, hrest]; rfl

/-! ## C41 -/

/-- The fitness stored in a solution. -/
def HasFitness (σ : Indiv K) (f : K) : Prop := ∃ s, σ.st = some s ∧ s.fitness = f

theorem HasFitness.eq {σ : Indiv K} {f : K} (h : HasFitness σ f) : σ.fitnessD = f := by
  obtain ⟨s, h1, h2⟩ := h
  simp [Indiv.fitnessD, h1, h2]

theorem fitnessD_of_st (σ : Indiv K) (s : SolState K) (h : σ.st = some s) : σ.fitnessD = s.fitness := by
  simp [Indiv.fitnessD, h]

theorem foldlM_archive_inv (pops : List (List (Indiv K))) (arch arch' : List (Indiv K)) (hlen : arch.length ≤ 1)
    (h : pops.foldlM archiveUpdate arch = .ok arch') :
    arch'.length ≤ 1 ∧ (pops ≠ [] → arch' ≠ []) ∧ (∀ b ∈ arch, ∃ a ∈ arch', b.fitnessD ≤ a.fitnessD) ∧
      (∀ pop ∈ pops, ∀ σ ∈ pop, ∃ a ∈ arch', σ.fitnessD ≤ a.fitnessD) ∧
      (∀ a ∈ arch', a ∈ arch ∨ ∃ pop ∈ pops, a ∈ pop) ∧
      ((∀ a ∈ arch, ∃ s, a.st = some s) → ∀ a ∈ arch', ∃ s, a.st = some s) := by
  induction pops generalizing arch with
  | nil => cases h; exact ⟨hlen, by simp, fun b hb => ⟨b, hb, le_refl _⟩, by simp, fun a ha => .inl ha, fun h => h⟩
  | cons p ps ih =>
    rw [List.foldlM_cons] at h
    cases h1 : archiveUpdate arch p with
    | error e => rw [h1] at h; cases h
    | ok mid =>
      rw [h1] at h
      obtain ⟨m, rfl, hm1, hm2, hm3, hm4⟩ := archiveUpdate_spec arch p mid hlen h1
      obtain ⟨i1, i2, i3, i4, i5, i6⟩ := ih [m] (by simp) h
      obtain ⟨a, ha, hma⟩ := i3 m (List.mem_singleton_self m)
      refine ⟨i1, fun _ hnil => ?_, ?_, ?_, ?_, ?_⟩
      · rw [hnil] at ha; exact absurd ha List.not_mem_nil
      · intro b hb; exact ⟨a, ha, le_trans (hm4 b hb) hma⟩
      · intro pop hpop σ hσ
        rcases List.mem_cons.mp hpop with rfl | hpop
        · exact ⟨a, ha, le_trans (hm3 σ hσ) hma⟩
        · exact i4 pop hpop σ hσ
      · intro c hc
        rcases i5 c hc with hc | ⟨pop, hpop, hc⟩
        · rw [List.mem_singleton] at hc
          subst hc
          rcases hm1 with hm1 | hm1
          · exact .inl hm1
          · exact .inr ⟨p, List.mem_cons_self .., hm1⟩
        · exact .inr ⟨pop, List.mem_cons_of_mem _ hpop, hc⟩
      · intro _
        exact i6 fun a ha => by rw [List.mem_singleton] at ha; subst ha; exact hm2

/-- C41: after any non-empty sequence of updates of a new archive, the archive holds exactly one solution. It was a member of one of the populations and its
fitness is at least that of every member of every population seen so far. -/
theorem C41_best_so_far (pops : List (List (Indiv K))) (hne : pops ≠ []) (arch : List (Indiv K))
    (h : pops.foldlM archiveUpdate [] = .ok arch) :
    ∃ a f, arch = [a] ∧ HasFitness a f ∧ (∃ pop ∈ pops, a ∈ pop) ∧
      ∀ pop ∈ pops, ∀ σ ∈ pop, ∀ g, HasFitness σ g → g ≤ f := by
  obtain ⟨h1, h2, _, h4, h5, h6⟩ := foldlM_archive_inv pops [] arch (by simp) h
  obtain ⟨a, rfl⟩ : ∃ a, arch = [a] := by
    match arch, h1, h2 hne with
    | [a], _, _ => exact ⟨a, rfl⟩
    | a :: b :: t, h1, _ => simp at h1
  obtain ⟨s, hs⟩ := h6 (by simp) a (List.mem_singleton_self a)
  refine ⟨a, s.fitness, rfl, ⟨s, hs, rfl⟩, ?_, ?_⟩
  · rcases h5 a (List.mem_singleton_self a) with h | h
    · exact absurd h List.not_mem_nil
    · exact h
  · intro pop hpop σ hσ g hg
    obtain ⟨b, hb, hle⟩ := h4 pop hpop σ hσ
    rw [List.mem_singleton] at hb
    subst hb
    rw [hg.eq, fitnessD_of_st b s hs] at hle
    exact hle

/-- C41: the fitness of the archived solution never decreases along a sequence of updates. -/
theorem C41_monotone (earlier later : List (List (Indiv K))) (arch arch' : List (Indiv K))
    (h : earlier.foldlM archiveUpdate [] = .ok arch) (h' : (earlier ++ later).foldlM archiveUpdate [] = .ok arch')
    (a : Indiv K) (ha : a ∈ arch) (f : K) (hf : HasFitness a f) : ∃ b ∈ arch', ∃ g, HasFitness b g ∧ f ≤ g := by
  obtain ⟨h1, _, _, _, _, h6⟩ := foldlM_archive_inv earlier [] arch (by simp) h
  rw [List.foldlM_append, h] at h'
  obtain ⟨_, _, k3, _, _, k6⟩ := foldlM_archive_inv later arch arch' h1 h'
  obtain ⟨b, hb, hle⟩ := k3 a ha
  obtain ⟨s, hs⟩ := k6 (h6 (by simp)) b hb
  refine ⟨b, hb, s.fitness, ⟨s, hs, rfl⟩, ?_⟩
  rw [hf.eq, fitnessD_of_st b s hs] at hle
  exact hle

/-- C41: the updates succeed for all non-empty evaluated populations. -/
theorem C41_total (pops : List (List (Indiv K))) (h : ∀ pop ∈ pops, pop ≠ [] ∧ ∀ σ ∈ pop, ∃ f, HasFitness σ f) :
    ∃ arch, pops.foldlM archiveUpdate [] = .ok arch := by
  suffices H : ∀ arch : List (Indiv K), (∀ a ∈ arch, ∃ s, a.st = some s) → arch.length ≤ 1 →
      ∃ arch', pops.foldlM archiveUpdate arch = .ok arch' from H [] (by simp) (by simp)
  induction pops with
  | nil => intro arch _ _; exact ⟨arch, rfl⟩
  | cons p ps ih =>
    intro arch harch hlen
    obtain ⟨hp1, hp2⟩ := h p (List.mem_cons_self ..)
    have hp3 : ∀ σ ∈ p, ∃ s, σ.st = some s := fun σ hσ => by
      obtain ⟨f, s, hs, _⟩ := hp2 σ hσ
      exact ⟨s, hs⟩
    obtain ⟨best, hbest⟩ := fittestIndiv_ok p hp1 hp3
    obtain ⟨s, hs⟩ := hp3 best (fittestIndiv_spec _ _ hbest).1
    have : ∃ mid, archiveUpdate arch p = .ok mid := by
      unfold archiveUpdate
      rw [hbest]
      dsimp only
      cases arch with
      | nil => exact ⟨[best], by rw [Indiv.clone_ok best s hs]⟩
      | cons a rest =>
        obtain ⟨t, ht⟩ := harch a (List.mem_cons_self ..)
        dsimp only
        rw [ht]
        dsimp only
        split
        · rw [Indiv.clone_ok best s hs]; exact ⟨_, rfl⟩
        · exact ⟨_, rfl⟩
    obtain ⟨mid, hmid⟩ := this
    obtain ⟨m, rfl, _, hm, _⟩ := archiveUpdate_spec arch p mid hlen hmid
    obtain ⟨arch', hr⟩ := ih (fun pop hpop => h pop (List.mem_cons_of_mem _ hpop)) [m]
      (fun a ha => by rw [List.mem_singleton] at ha; subst ha; exact hm) (by simp)
    exact ⟨arch', by rw [List.foldlM_cons, hmid]; exact hr⟩

/-- C41: when the pool grows, an archived solution is padded such that it still selects exactly the rules it selected before. -/
theorem C41_padding (n : Nat) (arch arch' : List (Indiv K)) (h : archivePad n arch = .ok arch') :
    arch'.length = arch.length ∧ ∀ (k : Nat) a a', arch[k]? = some a → arch'[k]? = some a' →
      a'.genome.length = n ∧ ∀ j : Nat, a'.genome[j]? = some true ↔ a.genome[j]? = some true := by
  unfold archivePad at h
  refine ⟨mapM_length _ _ _ h, fun k a a' ha ha' => ?_⟩
  obtain ⟨hk, rfl⟩ := List.getElem?_eq_some_iff.mp ha
  obtain ⟨hk', rfl⟩ := List.getElem?_eq_some_iff.mp ha'
  have := ((mapM_ok_iff _ _ _).mp h).get hk hk'
  simp only [List.get_eq_getElem] at this
  clear ha ha'
  generalize arch'[k] = a' at this ⊢
  generalize arch[k] = a at this ⊢
  unfold archivePad1 at this
  split_ifs at this with hlt
  cases this
  refine ⟨by simp; omega, fun j => ?_⟩
  by_cases hj : j < a.genome.length
  · rw [List.getElem?_append_left hj]
  · rw [List.getElem?_append_right (by omega), List.getElem?_eq_none_iff.mpr (by omega : a.genome.length ≤ j), List.getElem?_replicate]
    split_ifs <;> simp

example : archivePad 4 [{ genome := [true, false], st := none }] = .ok [({ genome := [true, false, false, false], st := none } : Indiv ℚ)] := by decide +kernel

/-- C41: after an update, no sequence of assignments to solutions of the population, or to solutions created later, changes an archived solution: its
genome and its attributes stay as they were. -/
theorem C41_isolated (h h' : SHeap K) (arch arch' pop : List Nat) (as ps : List (Indiv K)) (hn : h.NoSharing)
    (has : arch.mapM h.view = some as) (hps : pop.mapM h.view = some ps) (hdis : ∀ r ∈ pop, r ∉ arch)
    (hu : hArchiveUpdate h arch pop = .ok (h', arch'))
    (cmds : List (HCmd K)) (hc : ∀ c ∈ cmds, ∀ r, c.target = some r → r ∈ pop ∨ h'.objs.length ≤ r) :
    ∃ as', archiveUpdate as ps = .ok as' ∧ arch'.mapM (cmds.foldl HCmd.run h').view = some as' := by
  obtain ⟨h1, h2, h3, h4, as', h5, h6⟩ := hArchiveUpdate_refines h h' arch arch' pop as ps hn has hps hdis hu
  refine ⟨as', h6, ?_⟩
  have key : ∀ (refs : List Nat) (vs : List (Indiv K)), (∀ r ∈ refs, r ∈ arch') → refs.mapM h'.view = some vs →
      refs.mapM (cmds.foldl HCmd.run h').view = some vs := by
    intro refs
    induction refs with
    | nil => intro vs _ hv; exact hv
    | cons a rest ih =>
      intro vs hsub hv
      rw [List.mapM_cons] at hv ⊢
      cases ha : h'.view a with
      | none => rw [ha] at hv; cases hv
      | some b =>
        rw [ha] at hv
        cases hr : rest.mapM h'.view with
        | none => rw [hr] at hv; cases hv
        | some bs =>
          rw [hr] at hv; cases hv
          have hmem := hsub a (List.mem_cons_self ..)
          rw [foldl_run_view cmds h' h1 a b ha fun c hcc e => by
            rcases hc c hcc a e with hp | hp
            · exact h3 a hp hmem
            · have := h4 a hmem; omega]
          rw [ih bs (fun r hr' => hsub r (List.mem_cons_of_mem _ hr')) hr]
          rfl
  exact key arch' as' (fun r hr => hr) h5

/-- A population of two objects; the better one is archived, then its genome is changed in place and replaced. -/
def exampleHeap : SHeap ℚ :=
  { arrays := [[true, false], [false, true]],
    objs := [{ genomeAt := 0, st := some ⟨1, 2, 1, 3⟩ }, { genomeAt := 1, st := some ⟨1, 2, 1, 5⟩ }] }

example : exampleHeap.NoSharing := by
  refine ⟨?_, by decide⟩
  intro r r' o o' h h' e
  match r, r' with
  | 0, 0 => rfl
  | 1, 1 => rfl
  | 0, 1 => simp [exampleHeap] at h h'; subst h; subst h'; simp at e
  | 1, 0 => simp [exampleHeap] at h h'; subst h; subst h'; simp at e
  | r + 2, _ => simp [exampleHeap] at h
  | _, r' + 2 => simp [exampleHeap] at h'

example : ((hArchiveUpdate exampleHeap [] [0, 1]).map fun p =>
      (p.2, p.2.map ([HCmd.write 1 0 true, HCmd.setGenome 1 [], HCmd.new ⟨[true], none⟩].foldl HCmd.run p.1).view)) =
    .ok ([2], [some ⟨[false, true], some ⟨1, 2, 1, 5⟩⟩]) := by decide +kernel

example : [[(⟨[true], some ⟨1, 1, 1, 4⟩⟩ : Indiv ℚ)], [⟨[false], some ⟨1, 1, 0, 2⟩⟩]].foldlM archiveUpdate [] =
    .ok [⟨[true], some ⟨1, 1, 1, 4⟩⟩] := by decide +kernel

end Heap

/-! ## C45–C47: crossover and mutation -/

section Operators

variable {K : Type} [Field K] [LinearOrder K] [IsStrictOrderedRing K]

/-- C45: every crossover of parents of equal length succeeds, keeps the length, and takes each bit from one of the parents. -/
theorem C45_bits (rate r : K) (c : CrossDraw K) (A B : Indiv K) (h : A.genome.length = B.genome.length) :
    ∃ C, crossover rate r c A B = .ok C ∧ C.genome.length = A.genome.length ∧
      ∀ j : Nat, C.genome[j]? = A.genome[j]? ∨ C.genome[j]? = B.genome[j]? := by
  obtain ⟨C, hC⟩ := crossover_ok rate r c A B h
  refine ⟨C, hC, crossover_len _ _ _ _ _ _ _ rfl h.symm hC, fun j => ?_⟩
  unfold crossover at hC
  split at hC
  · split at hC
    · cases hC
      rw [(nPoint_get _ _ _ h).2]
      split
      · exact .inr rfl
      · exact .inl rfl
    · split at hC
      · cases hC
      · rename_i g hg
        cases hC
        simp only [Indiv.withGenome]
        rw [(uniformCross_get _ _ _ _ hg).2.2 j]
        split
        · exact .inl rfl
        · exact .inr rfl
  · cases hC; exact .inl rfl

/-- C45: a child with a new genome carries no error, fitness or complexity from a parent: unless no crossover takes place, it is not evaluated. -/
theorem C45_unevaluated (rate r : K) (c : CrossDraw K) (A B C : Indiv K) (hC : crossover rate r c A B = .ok C) : C = A ∨ C.st = none := by
  have hn : ∀ (l : List Nat) (A B : Indiv K), nPoint l A B = A ∨ (nPoint l A B).st = none := by
    intro l
    induction l with
    | nil => intro A B; exact .inl rfl
    | cons i rest ih =>
      intro A B
      refine .inr ?_
      rcases ih (A.withGenome (singlePoint A.genome B.genome i)) (B.withGenome (singlePoint B.genome (A.withGenome (singlePoint A.genome B.genome i)).genome i)) with h | h
      · unfold nPoint; dsimp only; rw [h]; rfl
      · exact h
  unfold crossover at hC
  split at hC
  · split at hC
    · cases hC; exact hn _ _ _
    · split at hC
      · cases hC
      · cases hC; exact .inr rfl
  · cases hC; exact .inl rfl

/-- C45: parents with equal genomes have a child with that genome. -/
theorem C45_identical (rate r : K) (c : CrossDraw K) (A B C : Indiv K) (h : A.genome = B.genome)
    (hC : crossover rate r c A B = .ok C) : C.genome = A.genome := by
  obtain ⟨C', hC', _, hb⟩ := C45_bits rate r c A B (by rw [h])
  rw [hC] at hC'; cases hC'
  refine List.ext_getElem? fun j => ?_
  rcases hb j with e | e
  · exact e
  · rw [e, h]

theorem hSinglePoint_spec (h h' : SHeap K) (a b c : Nat) (i : Nat) (hs : hSinglePoint h a b i = .ok (h', c)) :
    ∃ A B, h.view a = some A ∧ h.view b = some B ∧ (∀ r σ, h.view r = some σ → h'.view r = some σ) ∧
      h'.view c = some (A.withGenome (singlePoint A.genome B.genome i)) := by
  unfold hSinglePoint at hs
  split at hs
  · rename_i A B hA hB
    cases hs
    exact ⟨A, B, hA, hB, fun r σ hr => view_alloc_old h _ _ r hr, view_alloc_new h _⟩
  · cases hs

theorem hNPoint_spec (is : List Nat) (h h' : SHeap K) (a b c : Nat) (A B : Indiv K) (hA : h.view a = some A) (hB : h.view b = some B)
    (hs : hNPoint h a b is = .ok (h', c)) :
    (∀ r σ, h.view r = some σ → h'.view r = some σ) ∧ h'.view c = some (nPoint is A B) := by
  induction is generalizing h a b A B with
  | nil => cases hs; exact ⟨fun r σ hr => hr, hA⟩
  | cons i is ih =>
    unfold hNPoint at hs
    split at hs
    · cases hs
    · rename_i h1 a' h1eq
      split at hs
      · cases hs
      · rename_i h2 b' h2eq
        obtain ⟨A1, B1, e1, e2, o1, v1⟩ := hSinglePoint_spec _ _ _ _ _ _ h1eq
        rw [hA] at e1; rw [hB] at e2; cases e1; cases e2
        obtain ⟨A2, B2, e3, e4, o2, v2⟩ := hSinglePoint_spec _ _ _ _ _ _ h2eq
        rw [o1 b B hB] at e3; rw [v1] at e4; cases e3; cases e4
        obtain ⟨i1, i2⟩ := ih h2 a' b' _ _ (o2 _ _ v1) v2 hs
        exact ⟨fun r σ hr => i1 r σ (o2 r σ (o1 r σ hr)), i2⟩

/-- C45: on the object heap, crossover changes no existing solution, in particular neither parent, and the object it returns shows the child described by
`C45_bits`. -/
theorem C45_parents_unchanged (h h' : SHeap K) (rate r : K) (c : CrossDraw K) (a b child : Nat) (A B : Indiv K)
    (hA : h.view a = some A) (hB : h.view b = some B) (hs : hCrossover h rate r c a b = .ok (h', child)) :
    (∀ x σ, h.view x = some σ → h'.view x = some σ) ∧ ∃ C, crossover rate r c A B = .ok C ∧ h'.view child = some C := by
  unfold hCrossover at hs
  unfold crossover
  split at hs
  · rename_i hr
    rw [if_pos hr]
    split at hs
    · rename_i indices
      obtain ⟨h1, h2⟩ := hNPoint_spec indices h h' a b child A B hA hB hs
      exact ⟨h1, _, rfl, h2⟩
    · rename_i u
      rw [hA, hB] at hs
      dsimp only at hs ⊢
      split at hs
      · cases hs
      · rename_i g hg
        cases hs
        rw [hg]
        exact ⟨fun x σ hx => view_alloc_old h _ _ x hx, _, rfl, view_alloc_new h _⟩
  · rename_i hr
    rw [if_neg hr]
    cases hs
    exact ⟨fun x σ hx => hx, A, rfl, hA⟩

/-- The child an n-point crossover should give: the pieces between consecutive cut points come alternately from the first and the second parent. Position
`j` lies behind as many cut points as there are cuts `≤ j`. -/
def Alternates (cuts : List Nat) (a b child : List Bool) : Prop :=
  child.length = a.length ∧ ∀ j : Nat, child[j]? = if (cuts.countP fun c => decide (c ≤ j)) % 2 = 0 then a[j]? else b[j]?

/-- C46 is false: for two distinct cut points the child is not the alternation of the pieces. -/
theorem C46_refuted : ∃ (cuts : List Nat) (A B : Indiv ℚ), cuts.Nodup ∧ cuts.length = 2 ∧ (∀ c ∈ cuts, c < A.genome.length) ∧
    A.genome.length = B.genome.length ∧ ¬ Alternates cuts A.genome B.genome (nPoint cuts A B).genome := by
  refine ⟨[1, 3], ⟨[true, true, true, true], none⟩, ⟨[false, false, false, false], none⟩, by decide, rfl, by decide, rfl, ?_⟩
  rintro ⟨_, h⟩
  have := h 3
  revert this
  decide +kernel

/-- What the operator does instead, for all cut points: a one-point crossover at the smallest of them. -/
theorem C46_single_cut_partial (cuts : List Nat) (A B : Indiv K) (h : A.genome.length = B.genome.length) (m : Nat) (hm : m ∈ cuts)
    (hmin : ∀ c ∈ cuts, m ≤ c) : (nPoint cuts A B).genome = A.genome.take m ++ B.genome.drop m := by
  refine List.ext_getElem? fun j => ?_
  rw [(nPoint_get cuts A B h).2 j, show A.genome.take m ++ B.genome.drop m = singlePoint A.genome B.genome m from rfl,
    singlePoint_get _ _ _ _ h]
  by_cases hj : j < m
  · rw [if_pos hj, if_neg]
    rintro ⟨i, hi, hij⟩
    have := hmin i hi; omega
  · rw [if_neg hj, if_pos ⟨m, hm, by omega⟩]

/-- Hence the property holds for one cut point. Missing: every number of cut points above one (`C46_refuted`). -/
theorem C46_one_point_partial (m : Nat) (A B : Indiv K) (h : A.genome.length = B.genome.length) :
    Alternates [m] A.genome B.genome (nPoint [m] A B).genome := by
  refine ⟨(nPoint_get _ _ _ h).1, fun j => ?_⟩
  rw [(nPoint_get _ _ _ h).2 j]
  by_cases hj : m ≤ j
  · rw [if_pos ⟨m, by simp, hj⟩, if_neg (by simp [hj])]
  · rw [if_neg (by simpa using hj), if_pos (by simp [hj])]

/-- C47: the mutated genome has the same length and differs from the parent's at a position exactly if the draw there is below the rate; it is not marked as
evaluated. -/
theorem C47_flips (rate : K) (u : Nat → K) (σ : Indiv K) :
    (bitFlips rate u σ).genome.length = σ.genome.length ∧ (bitFlips rate u σ).st = none ∧
      ∀ (j : Nat) (b : Bool), σ.genome[j]? = some b → ∃ b', (bitFlips rate u σ).genome[j]? = some b' ∧ (b' ≠ b ↔ u j < rate) := by
  refine ⟨length_bitFlips rate u σ, rfl, fun j b hb => ?_⟩
  simp only [bitFlips, Indiv.withGenome, List.getElem?_mapIdx, hb, Option.map_some]
  refine ⟨_, rfl, ?_⟩
  by_cases h : u j < rate <;> cases b <;> simp [h]

/-- C47: with draws in `[0, 1)`, rate 0 copies the genome and rate 1 inverts it. -/
theorem C47_extremes (u : Nat → K) (hu : ∀ j, 0 ≤ u j ∧ u j < 1) (σ : Indiv K) :
    (bitFlips 0 u σ).genome = σ.genome ∧ (bitFlips 1 u σ).genome = σ.genome.map not := by
  constructor
  · refine List.ext_getElem? fun j => ?_
    simp only [bitFlips, Indiv.withGenome, List.getElem?_mapIdx]
    have : ¬ u j < 0 := not_lt.mpr (hu j).1
    cases σ.genome[j]? <;> simp [this]
  · refine List.ext_getElem? fun j => ?_
    simp only [bitFlips, Indiv.withGenome, List.getElem?_mapIdx, List.getElem?_map]
    cases σ.genome[j]? <;> simp [(hu j).2]

/-- C47: on the object heap, mutation changes no existing solution and returns an object that shows the mutated solution. -/
theorem C47_parent_unchanged (h h' : SHeap K) (rate : K) (u : Nat → K) (a child : Nat) (A : Indiv K) (hA : h.view a = some A)
    (hs : hBitFlips h rate u a = .ok (h', child)) :
    (∀ x σ, h.view x = some σ → h'.view x = some σ) ∧ h'.view child = some (bitFlips rate u A) ∧ child ≠ a := by
  unfold hBitFlips at hs
  rw [hA] at hs
  cases hs
  refine ⟨fun x σ hx => view_alloc_old h _ _ x hx, view_alloc_new h _, ?_⟩
  have := view_lt h a A hA
  exact Nat.ne_of_gt this

example : (nPoint [1, 3] (⟨[true, true, true, true], none⟩ : Indiv ℚ) ⟨[false, false, false, false], none⟩).genome =
    [true, false, false, false] := by decide +kernel

example : crossover (9/10 : ℚ) (1/2) (.uniform fun j => if j = 1 then 1 else 0) ⟨[true, true, true], none⟩ ⟨[false, false, false], none⟩ =
    .ok ⟨[true, false, true], none⟩ := by decide +kernel

example : (bitFlips (1/10 : ℚ) (fun j => if j = 1 then 1/20 else 1/2) ⟨[true, true, false], none⟩).genome = [true, false, false] := by
  decide +kernel

example : ((hCrossover exampleHeap (9/10) (1/2) (.nPoint [1]) 0 1).map fun p => (p.2, [0, 1, p.2].map fun r => (p.1.view r).map Indiv.genome)) =
    .ok (2, [some [true, false], some [false, true], some [true, true]]) := by decide +kernel

end Operators

end Suprb
