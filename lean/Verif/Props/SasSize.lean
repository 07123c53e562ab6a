import Verif.Props.Sas
import Verif.Props.Recombine

/-!
# Claim C129: the size of the population of the genetic algorithm with ageing
-/

set_option autoImplicit false
set_option linter.unusedSectionVars false

namespace Suprb

variable {K : Type} [Field K] [LinearOrder K] [IsStrictOrderedRing K]

/-! ## Every generation at most doubles the population -/

theorem ageing_length (size : Nat) (pop parents : List (Aged K)) (h : ageing size pop = .ok parents) : parents.length ≤ pop.length := by
  obtain ⟨last, _, _, hp⟩ := ageing_spec size pop parents h
  rw [hp]
  exact (List.length_filter_le _ _).trans (by rw [List.length_map])

theorem ageing_old (size : Nat) (pop parents : List (Aged K)) (h : ageing size pop = .ok parents) (hage : ∀ o ∈ pop, o.age ≤ 3) : ∀ o ∈ parents, o.age ≤ 3 := by
  intro o ho
  obtain ⟨o', ho', _, _, hle, _⟩ := C64_ages_partial size pop parents h o ho
  exact hle.trans (hage o' ho')

theorem sasStep_size (cfg : SasCfg K) (ev : Eval K) (s : SasState K) (d : SasDraw K) (s' : SasState K) (h : (sasStep cfg s d).run ev = .ok s') :
    ∃ parents, ageing cfg.initialSize s.pop = .ok parents ∧ s'.pop.length ≤ 2 * parents.length ∧ ((∀ o ∈ s.pop, o.age ≤ 3) → ∀ o ∈ s'.pop, o.age ≤ 3) := by
  have hsat : (sasStep cfg s d).Sat ev (fun _ => True) fun s' => ∃ parents, ageing cfg.initialSize s.pop = .ok parents ∧ s'.pop.length ≤ 2 * parents.length ∧
      ((∀ o ∈ s.pop, o.age ≤ 3) → ∀ o ∈ s'.pop, o.age ≤ 3) := by
    unfold sasStep
    refine Prog.Sat.bind' (P := fun parents => ageing cfg.initialSize s.pop = .ok parents) (Prog.Sat.lift fun _ h => h) fun parents hpar => ?_
    refine Prog.Sat.bind' (P := fun cs => cs.length = 2 * (pairs (parents.map Aged.indiv)).length) (Prog.Sat.lift fun cs hcs =>
      sagaChildren_length _ _ _ cs hcs) fun cs hcs => ?_
    refine Prog.Sat.bind' (agedEvaluate_ages ev _) fun pop'' hpop'' => ?_
    refine ⟨parents, hpar, ?_, fun hold o ho => ?_⟩
    · have hl := congrArg List.length hpop''
      rw [List.length_map, List.length_map, List.length_append, List.length_map] at hl
      rw [length_pairs, List.length_map] at hcs
      have hg : (gaMutate cfg.mutRate d.flips cs).length = cs.length := by simp [gaMutate]
      change pop''.length ≤ _
      omega
    · have hm : o.age ∈ pop''.map Aged.age := List.mem_map.mpr ⟨o, ho, rfl⟩
      rw [hpop'', List.map_append, List.mem_append, List.map_map] at hm
      rcases hm with hm | hm
      · obtain ⟨o', ho', he⟩ := List.mem_map.mp hm
        rw [← he]
        exact ageing_old _ _ _ hpar hold o' ho'
      · obtain ⟨σ, _, he⟩ := List.mem_map.mp hm
        rw [← he]
        exact le_refl _
  exact hsat.run s' h

theorem run_forEach_append {α β : Type} (ev : Eval K) (f : α → β → Prog K α) (l1 l2 : List β) (a : α) :
    (Prog.forEach f (l1 ++ l2) a).run ev = ((Prog.forEach f l1 a).bind (Prog.forEach f l2)).run ev := by
  induction l1 generalizing a with
  | nil => rfl
  | cons b rest ih =>
    change ((f a b).bind (Prog.forEach f (rest ++ l2))).run ev = (((f a b).bind (Prog.forEach f rest)).bind (Prog.forEach f l2)).run ev
    rw [Prog.run_bind, Prog.run_bind, Prog.run_bind]
    cases (f a b).run ev with
    | error e => rfl
    | ok a' => simp only [ih, Prog.run_bind]

theorem sas_snoc (cfg : SasCfg K) (ev : Eval K) (ds : List (SasDraw K)) (d : SasDraw K) (pop : List (Aged K)) (s' : SasState K)
    (h : (sas cfg (ds ++ [d]) pop).run ev = .ok s') : ∃ s, (sas cfg ds pop).run ev = .ok s ∧ (sasStep cfg s d).run ev = .ok s' := by
  change ((Prog.each Aged.evaluate pop).bind fun pop => Prog.forEach (sasStep cfg) (ds ++ [d]) ⟨pop, []⟩).run ev = _ at h
  rw [Prog.run_bind] at h
  cases h0 : (Prog.each Aged.evaluate pop).run ev with
  | error e => rw [h0] at h; cases h
  | ok pop0 =>
    rw [h0] at h
    dsimp only at h
    rw [run_forEach_append, Prog.run_bind] at h
    cases h1 : (Prog.forEach (sasStep cfg) ds ⟨pop0, []⟩).run ev with
    | error e => rw [h1] at h; cases h
    | ok s =>
      rw [h1] at h
      dsimp only at h
      refine ⟨s, ?_, ?_⟩
      · change ((Prog.each Aged.evaluate pop).bind fun pop => Prog.forEach (sasStep cfg) ds ⟨pop, []⟩).run ev = _
        rw [Prog.run_bind, h0]
        exact h1
      · change ((sasStep cfg s d).bind (Prog.forEach (sasStep cfg) [])).run ev = _ at h
        rw [Prog.run_bind] at h
        cases h2 : (sasStep cfg s d).run ev with
        | error e => rw [h2] at h; cases h
        | ok s2 => rw [h2] at h; exact h

theorem sas_nil (cfg : SasCfg K) (ev : Eval K) (pop : List (Aged K)) (s : SasState K) (h : (sas cfg [] pop).run ev = .ok s) : s.pop.map Aged.age = pop.map Aged.age := by
  have hsat : (sas cfg [] pop).Sat ev (fun _ => True) fun s => s.pop.map Aged.age = pop.map Aged.age := by
    unfold sas
    exact Prog.Sat.bind' (agedEvaluate_ages ev pop) fun pop' hpop' => hpop'
  exact hsat.run s h

/-- What always holds of C129: in every generation the population at most doubles. -/
theorem C129_doubling_partial (cfg : SasCfg K) (ev : Eval K) (draws : List (SasDraw K)) (pop : List (Aged K)) (s : SasState K) (h : (sas cfg draws pop).run ev = .ok s) :
    s.pop.length ≤ pop.length * 2 ^ draws.length := by
  induction draws using List.reverseRecOn generalizing s with
  | nil =>
    have := congrArg List.length (sas_nil cfg ev pop s h)
    rw [List.length_map, List.length_map] at this
    simp [this]
  | append_singleton ds d ih =>
    obtain ⟨s0, h0, h1⟩ := sas_snoc cfg ev ds d pop s h
    obtain ⟨parents, hp, hle, _⟩ := sasStep_size cfg ev s0 d s h1
    have h2 := ageing_length _ _ _ hp
    have h3 := ih s0 h0
    rw [List.length_append, List.length_singleton, pow_succ]
    calc s.pop.length ≤ 2 * s0.pop.length := hle.trans (by omega)
      _ ≤ pop.length * (2 ^ ds.length * 2) := by rw [← mul_assoc]; omega

/-! ## Different fitness values -/

theorem getD_lt_of_pairwise (l : List K) (h : l.Pairwise (· ≤ ·)) (hn : l.Nodup) (i j : Nat) (hij : i < j) (hj : j < l.length) : l.getD i 0 < l.getD j 0 := by
  refine lt_of_le_of_ne (getD_le_of_pairwise l h i j (le_of_lt hij) hj) ?_
  rw [List.getD_eq_getElem _ _ (hij.trans hj), List.getD_eq_getElem _ _ hj]
  intro he
  have := (List.Nodup.getElem_inj_iff hn).mp he
  omega

/-- With different values, at least half of the values are below the element in the upper half: fewer than `k` values are at least `x` and `2 * k ≤ length` puts `x` above the median. -/
theorem above_median (l : List K) (hn : l.Nodup) (x : K) (hx : x ∈ l) (k : Nat) (hk : l.countP (fun y => decide (x ≤ y)) ≤ k) (hl : 2 * k ≤ l.length) : npMedian l < x := by
  have hperm := sortedAsc_perm (id : K → K) l
  have hpw := sortedAsc_pairwise (id : K → K) l
  have hlen := hperm.length_eq
  rw [← hperm.countP_eq] at hk
  unfold npMedian
  dsimp only
  generalize hs : sortedAsc (id : K → K) l = s at *
  have hpw' : s.Pairwise (· ≤ ·) := hpw
  have hns : s.Nodup := hperm.nodup_iff.mpr hn
  have hxs : x ∈ s := hperm.mem_iff.mpr hx
  obtain ⟨i, hi, rfl⟩ := List.mem_iff_getElem.mp hxs
  have hcount : s.length - i ≤ s.countP (fun y => decide (s[i] ≤ y)) := by
    have h2 : s.countP (fun y => decide (s[i] ≤ y)) = (s.take i).countP (fun y => decide (s[i] ≤ y)) + (s.drop i).countP (fun y => decide (s[i] ≤ y)) := by
      rw [← List.countP_append, List.take_append_drop]
    have h3 : (s.drop i).countP (fun y => decide (s[i] ≤ y)) = (s.drop i).length := by
      rw [List.countP_eq_length]
      intro y hy
      obtain ⟨j, hj, rfl⟩ := List.mem_iff_getElem.mp hy
      rw [List.length_drop] at hj
      rw [List.getElem_drop]
      have := getD_le_of_pairwise s hpw' i (i + j) (by omega) (by omega)
      rw [List.getD_eq_getElem _ _ hi, List.getD_eq_getElem _ _ (by omega : i + j < s.length)] at this
      exact decide_eq_true this
    rw [h2, h3, List.length_drop]
    omega
  have hxi : s[i] = s.getD i 0 := (List.getD_eq_getElem _ _ hi).symm
  rw [hxi]
  split
  · exact getD_lt_of_pairwise s hpw' hns _ _ (by omega) hi
  · have h1 := getD_lt_of_pairwise s hpw' hns (l.length / 2 - 1) (l.length / 2) (by omega) (by omega)
    have h2 := getD_le_of_pairwise s hpw' (l.length / 2) i (by omega) hi
    linarith

/-- In large populations with different fitness values only solutions fitter than the median survive. -/
theorem ageing_half (size : Nat) (pop parents : List (Aged K)) (h : ageing size pop = .ok parents) (hage : ∀ o ∈ pop, o.age ≤ 3)
    (hn : (pop.map fun o => o.indiv.fitnessD).Nodup) (hsize : 2 * (size * 5) ≤ pop.length) : 2 * parents.length ≤ pop.length := by
  obtain ⟨last, hmem, hlast, hp⟩ := ageing_spec size pop parents h
  set key := fun o : Aged K => o.indiv.fitnessD with hkey
  set s := sortedDesc key pop with hs
  have hperm : s.Perm pop := sortedDesc_perm key pop
  have hpw : s.Pairwise fun a b => key b ≤ key a := sortedDesc_pairwise key pop
  have hns : (s.map key).Nodup := (hperm.map key).nodup_iff.mpr hn
  have htop : npMedian (pop.map key) < key last := by
    refine above_median _ hn _ (List.mem_map.mpr ⟨last, hmem, rfl⟩) (size * 5) ?_ (by rw [List.length_map]; exact hsize)
    rw [List.countP_map, ← hperm.countP_eq, ← List.take_append_drop (size * 5) s, List.countP_append]
    have h1 : (s.drop (size * 5)).countP ((fun y => decide (key last ≤ y)) ∘ key) = 0 := by
      rw [List.countP_eq_zero]
      intro x hx hle
      have hle := of_decide_eq_true hle
      have hlt : last ∈ s.take (size * 5) := List.mem_of_getLast? hlast
      rw [← List.take_append_drop (size * 5) s] at hpw hns
      have h2 := (List.pairwise_append.mp hpw).2.2 last hlt x hx
      rw [List.map_append, List.nodup_append] at hns
      exact hns.2.2 (key last) (List.mem_map.mpr ⟨last, hlt, rfl⟩) (key x) (List.mem_map.mpr ⟨x, hx, rfl⟩) (le_antisymm hle h2)
    rw [h1, add_zero]
    exact (List.countP_le_length).trans (List.length_take_le _ _)
  have hne : pop.map key ≠ [] := by
    intro h0
    rw [List.map_eq_nil_iff] at h0
    rw [h0] at hmem
    cases hmem
  have hhalf := (npMedian_half (pop.map key) hne).1
  rw [List.countP_map, List.length_map] at hhalf
  refine le_trans ?_ hhalf
  rw [hp, ← List.countP_eq_length_filter, List.countP_map]
  refine Nat.mul_le_mul_left 2 (List.countP_mono_left ?_)
  intro o ho hpos
  have hpos := of_decide_eq_true hpos
  refine decide_eq_true ?_
  by_contra hlt
  have h3 := hage o ho
  change 0 < newAge _ _ _ _ _ _ at hpos
  unfold newAge at hpos
  dsimp only at hpos
  rw [if_neg hlt, if_pos ⟨by omega, lt_of_le_of_lt (not_lt.mp hlt) htop⟩] at hpos
  omega

/-- C129 holds as long as no two solutions of a population have the same fitness: the population stays below twenty times the initial size. Missing: equal fitness values
(`C129_refuted`). -/
theorem C129_distinct_partial (cfg : SasCfg K) (hs : 1 ≤ cfg.initialSize) (ev : Eval K) (draws : List (SasDraw K)) (pop : List (Aged K)) (hpop : pop.length = cfg.initialSize)
    (hage : ∀ o ∈ pop, o.age ≤ 3)
    (hdistinct : ∀ ds, ds <+: draws → ∀ s, (sas cfg ds pop).run ev = .ok s → (s.pop.map fun o => o.indiv.fitnessD).Nodup)
    (s : SasState K) (h : (sas cfg draws pop).run ev = .ok s) : s.pop.length < 20 * cfg.initialSize := by
  have key : ∀ draws : List (SasDraw K), (∀ ds, ds <+: draws → ∀ s, (sas cfg ds pop).run ev = .ok s → (s.pop.map fun o => o.indiv.fitnessD).Nodup) →
      ∀ s, (sas cfg draws pop).run ev = .ok s → s.pop.length < 20 * cfg.initialSize ∧ ∀ o ∈ s.pop, o.age ≤ 3 := by
    intro draws
    induction draws using List.reverseRecOn with
    | nil =>
      intro _ s h
      have hn := sas_nil cfg ev pop s h
      have hl := congrArg List.length hn
      rw [List.length_map, List.length_map] at hl
      refine ⟨by omega, fun o ho => ?_⟩
      have : o.age ∈ pop.map Aged.age := by rw [← hn]; exact List.mem_map.mpr ⟨o, ho, rfl⟩
      obtain ⟨o', ho', he⟩ := List.mem_map.mp this
      rw [← he]
      exact hage o' ho'
    | append_singleton ds d ih =>
      intro hd s h
      obtain ⟨s0, h0, h1⟩ := sas_snoc cfg ev ds d pop s h
      obtain ⟨hlt, hold⟩ := ih (fun ds' hp => hd ds' (hp.trans (List.prefix_append _ _))) s0 h0
      obtain ⟨parents, hp, hle, hages⟩ := sasStep_size cfg ev s0 d s h1
      refine ⟨?_, hages hold⟩
      rcases Nat.lt_or_ge s0.pop.length (2 * (cfg.initialSize * 5)) with hsmall | hbig
      · have := ageing_length _ _ _ hp
        omega
      · have := ageing_half _ _ _ hp hold (hd ds (List.prefix_append _ _) s0 h0) hbig
        omega
  exact (key draws hdistinct s h).1

/-- The fitness values after a run. -/
def sasFits (ds : List (SasDraw ℚ)) (pop : List (Aged ℚ)) : List ℚ :=
  match (sas (sasCfg 2) ds pop).run sasEval with
  | .error _ => []
  | .ok s => s.pop.map fun o => o.indiv.fitnessD

/-- The hypotheses hold: two solutions with fitness 4 and 5, whose children have fitness 2 and 3. -/
example : ∃ s, (sas (sasCfg 2) [sasDraw [6, 6]] [⟨⟨sasGenome 4, none⟩, 3⟩, ⟨⟨sasGenome 5, none⟩, 3⟩]).run sasEval = .ok s ∧ s.pop.length = 4 ∧ s.pop.length < 20 * 2 := by
  have hf1 : sasFits [sasDraw [6, 6]] [⟨⟨sasGenome 4, none⟩, 3⟩, ⟨⟨sasGenome 5, none⟩, 3⟩] = [4, 5, 2, 3] := by decide +kernel
  have hf0 : sasFits [] [⟨⟨sasGenome 4, none⟩, 3⟩, ⟨⟨sasGenome 5, none⟩, 3⟩] = [4, 5] := by decide +kernel
  cases h : (sas (sasCfg 2) [sasDraw [6, 6]] [⟨⟨sasGenome 4, none⟩, 3⟩, ⟨⟨sasGenome 5, none⟩, 3⟩]).run sasEval with
  | error e => simp [sasFits, h] at hf1
  | ok s =>
    have hlen : s.pop.length = 4 := by simpa [sasFits, h] using congrArg List.length hf1
    refine ⟨s, rfl, hlen, C129_distinct_partial (sasCfg 2) (by decide) sasEval _ _ rfl (by intro o ho; simp at ho; rcases ho with rfl | rfl <;> decide) ?_ s h⟩
    intro ds hp s' h'
    have hfs : sasFits ds [⟨⟨sasGenome 4, none⟩, 3⟩, ⟨⟨sasGenome 5, none⟩, 3⟩] = s'.pop.map fun o => o.indiv.fitnessD := by simp [sasFits, h']
    rw [← hfs]
    rcases List.prefix_cons_iff.mp hp with rfl | ⟨t, rfl, ht⟩
    · rw [hf0]; decide +kernel
    · rw [List.prefix_nil.mp ht, hf1]; decide +kernel

/-! ## Unbounded growth -/

theorem npMedian_replicate (n : Nat) (hn : 1 ≤ n) (c : K) : npMedian (List.replicate n c) = c := by
  have hperm := sortedAsc_perm (id : K → K) (List.replicate n c)
  have hs : sortedAsc (id : K → K) (List.replicate n c) = List.replicate n c := List.perm_replicate.mp hperm
  have hg : ∀ i, i < n → (List.replicate n c).getD i 0 = c := fun i hi => by
    rw [List.getD_eq_getElem _ _ (by rw [List.length_replicate]; exact hi), List.getElem_replicate]
  unfold npMedian
  dsimp only
  rw [hs, List.length_replicate, hg _ (by omega)]
  split
  · rfl
  · rw [hg _ (by omega)]
    ring

theorem npMedian_two (n : Nat) (hn : 1 ≤ n) (a b : K) (hab : a < b) : npMedian (List.replicate n a ++ List.replicate n b) = (a + b) / 2 := by
  have hs : sortedAsc (id : K → K) (List.replicate n a ++ List.replicate n b) = List.replicate n a ++ List.replicate n b := by
    refine List.Pairwise.insertionSort_eq ?_
    rw [List.pairwise_append]
    refine ⟨List.pairwise_replicate.mpr (Or.inr (le_refl _)), List.pairwise_replicate.mpr (Or.inr (le_refl _)), fun x hx y hy => ?_⟩
    rw [List.eq_of_mem_replicate hx, List.eq_of_mem_replicate hy]
    exact le_of_lt hab
  have hl : (List.replicate n a ++ List.replicate n b).length = 2 * n := by simp; omega
  unfold npMedian
  dsimp only
  rw [hs, hl, if_neg (by omega)]
  have h1 : (List.replicate n a ++ List.replicate n b).getD (2 * n / 2 - 1) 0 = a := by
    rw [List.getD_eq_getElem _ _ (by omega), List.getElem_append_left (by rw [List.length_replicate]; omega), List.getElem_replicate]
  have h2 : (List.replicate n a ++ List.replicate n b).getD (2 * n / 2) 0 = b := by
    rw [List.getD_eq_getElem _ _ (by omega), List.getElem_append_right (by rw [List.length_replicate]; omega), List.getElem_replicate]
  rw [h1, h2]

/-- A fitted solution with an age. -/
def agedSol (g : List Bool) (st : SolState K) (age : Int) : Aged K := ⟨⟨g, some st⟩, age⟩

theorem ageing_total (size : Nat) (hs : 1 ≤ size) (pop : List (Aged K)) (hne : pop ≠ []) (hfit : allFitted (pop.map Aged.indiv) = true) : ∃ parents, ageing size pop = .ok parents := by
  unfold ageing
  rw [if_pos hfit]
  dsimp only
  cases hl : ((sortedDesc (fun o : Aged K => o.indiv.fitnessD) pop).take (size * 5)).getLast? with
  | some last => exact ⟨_, rfl⟩
  | none =>
    rw [List.getLast?_eq_none_iff] at hl
    have hlen := congrArg List.length hl
    rw [List.length_take, (sortedDesc_perm _ _).length_eq] at hlen
    have : 0 < pop.length := List.length_pos_iff.mpr hne
    simp only [List.length_nil] at hlen
    omega

theorem ageing_same (size : Nat) (hs : 1 ≤ size) (n : Nat) (hn : 1 ≤ n) (g : List Bool) (st : SolState K) :
    ageing size (List.replicate n (agedSol g st 3)) = .ok (List.replicate n (agedSol g st 1)) := by
  have hne : List.replicate n (agedSol g st 3) ≠ [] := by simp; omega
  obtain ⟨parents, hp⟩ := ageing_total size hs (List.replicate n (agedSol g st 3)) hne (by simp [allFitted, agedSol])
  obtain ⟨last, hmem, _, he⟩ := ageing_spec _ _ _ hp
  have hlast : last = agedSol g st 3 := List.eq_of_mem_replicate hmem
  rw [hp, he, hlast, List.map_replicate, List.map_replicate, npMedian_replicate n hn]
  have : newAge (List.replicate n (agedSol g st 3)).length (size * 5) (agedSol g st 3).indiv.fitnessD (agedSol g st 3).indiv.fitnessD (agedSol g st 3).indiv.fitnessD
      (agedSol g st 3).age = 1 := by
    unfold newAge
    dsimp only
    rw [if_neg (lt_irrefl _), if_neg (fun h => lt_irrefl _ h.2)]
    rfl
  rw [this]
  refine congrArg Except.ok ?_
  rw [List.filter_eq_self.mpr]
  · rfl
  · intro o ho
    rw [List.eq_of_mem_replicate ho]
    rfl

theorem ageing_replace (size : Nat) (hs : 1 ≤ size) (n : Nat) (hn : 1 ≤ n) (g g' : List Bool) (st st' : SolState K) (hlt : st.fitness < st'.fitness) :
    ageing size (List.replicate n (agedSol g st 1) ++ List.replicate n (agedSol g' st' 3)) = .ok (List.replicate n (agedSol g' st' 3)) := by
  have hne : List.replicate n (agedSol g st 1) ++ List.replicate n (agedSol g' st' 3) ≠ [] := by simp; omega
  obtain ⟨parents, hp⟩ := ageing_total size hs _ hne (by simp [allFitted, agedSol])
  obtain ⟨last, hmem, _, he⟩ := ageing_spec _ _ _ hp
  have hle : last.indiv.fitnessD ≤ st'.fitness := by
    rcases List.mem_append.mp hmem with h | h
    · rw [List.eq_of_mem_replicate h]
      exact le_of_lt hlt
    · rw [List.eq_of_mem_replicate h]
      exact le_refl _
  have hmed : npMedian ((List.replicate n (agedSol g st 1) ++ List.replicate n (agedSol g' st' 3)).map fun o => o.indiv.fitnessD) = (st.fitness + st'.fitness) / 2 := by
    rw [List.map_append, List.map_replicate, List.map_replicate]
    exact npMedian_two n hn _ _ hlt
  rw [hp, he, hmed]
  refine congrArg Except.ok ?_
  rw [List.map_append, List.map_replicate, List.map_replicate, List.filter_append]
  have h1 : ∀ m t, 0 < newAge m t ((st.fitness + st'.fitness) / 2) last.indiv.fitnessD (agedSol g st 1).indiv.fitnessD (agedSol g st 1).age → False := by
    intro m t h
    unfold newAge at h
    dsimp only at h
    have hf : (agedSol g st 1).indiv.fitnessD = st.fitness := rfl
    have ha : (agedSol g st 1).age = 1 := rfl
    rw [hf, ha, if_neg (c := (st.fitness + st'.fitness) / 2 < st.fitness) (by linarith)] at h
    split at h <;> omega
  have h2 : ∀ m t, newAge m t ((st.fitness + st'.fitness) / 2) last.indiv.fitnessD (agedSol g' st' 3).indiv.fitnessD (agedSol g' st' 3).age = 3 := by
    intro m t
    unfold newAge
    dsimp only
    have hf : (agedSol g' st' 3).indiv.fitnessD = st'.fitness := rfl
    have ha : (agedSol g' st' 3).age = 3 := rfl
    rw [hf, ha, if_pos (c := (st.fitness + st'.fitness) / 2 < st'.fitness) (by linarith), if_neg (fun h => absurd h.2 (not_lt.mpr hle))]
    rfl
  rw [List.filter_eq_nil_iff.mpr, List.nil_append, List.filter_eq_self.mpr]
  · rw [h2]
    rfl
  · intro o ho
    rw [List.eq_of_mem_replicate ho]
    dsimp only
    rw [h2]
    rfl
  · intro o ho hpos
    rw [List.eq_of_mem_replicate ho] at hpos
    exact h1 _ _ (of_decide_eq_true hpos)

/-- Draws without crossover and with flips that turn every `g` into `g'`. -/
def turnDraw (cfg : SasCfg K) (g g' : List Bool) : SasDraw K :=
  ⟨fun _ _ => (max 0 cfg.crossRate, .nPoint []), fun _ i => if xor (g.getD i false) (g'.getD i false) then 0 else cfg.mutRate⟩

/-- All numbers of the draws are in [0, 1). -/
def SasDraw.Unit (d : SasDraw K) : Prop := (∀ k b, 0 ≤ (d.cross k b).1 ∧ (d.cross k b).1 < 1) ∧ ∀ k, Spec.Unit (d.flips k)

theorem turnDraw_unit (cfg : SasCfg K) (hc : cfg.crossRate < 1) (h0 : 0 < cfg.mutRate) (h1 : cfg.mutRate < 1) (g g' : List Bool) : (turnDraw cfg g g').Unit := by
  refine ⟨fun _ _ => ⟨le_max_left _ _, max_lt zero_lt_one hc⟩, fun _ i => ?_⟩
  change 0 ≤ (if _ then (0 : K) else cfg.mutRate) ∧ (if _ then (0 : K) else cfg.mutRate) < 1
  split
  · exact ⟨le_refl _, zero_lt_one⟩
  · exact ⟨le_of_lt h0, h1⟩

theorem sagaChildren_replicate (f : Nat → Bool → Indiv K → Indiv K → Except PyErr (Indiv K)) (hf : ∀ k b A B, f k b A B = .ok A) (m k : Nat) (σ : Indiv K) :
    sagaChildren f k (pairs (List.replicate (2 * m) σ)) = .ok (List.replicate (2 * m) σ) := by
  induction m generalizing k with
  | zero => rfl
  | succ m ih =>
    have : 2 * (m + 1) = 2 * m + 1 + 1 := by ring
    rw [this, List.replicate_succ, List.replicate_succ]
    change sagaChildren f k ((σ, σ) :: pairs (List.replicate (2 * m) σ)) = _
    unfold sagaChildren
    rw [hf, hf, ih]

theorem map_zipIdx_const {α β : Type} (f : α × Nat → β) (a : α) (b : β) (hf : ∀ k, f (a, k) = b) (n k : Nat) :
    ((List.replicate n a).zipIdx k).map f = List.replicate n b := by
  induction n generalizing k with
  | zero => rfl
  | succ n ih =>
    rw [List.replicate_succ, List.zipIdx_cons, List.map_cons, hf, ih, List.replicate_succ]

theorem gaMutate_turn (cfg : SasCfg K) (h0 : 0 < cfg.mutRate) (g g' : List Bool) (hl : g.length = g'.length) (st : Option (SolState K)) (n : Nat) :
    gaMutate cfg.mutRate (turnDraw cfg g g').flips (List.replicate n ⟨g, st⟩) = List.replicate n ⟨g', none⟩ := by
  unfold gaMutate
  refine map_zipIdx_const _ _ _ (fun k => ?_) n 0
  change Indiv.mk (g.mapIdx fun i b => xor b (decide ((if xor (g.getD i false) (g'.getD i false) then (0 : K) else cfg.mutRate) < cfg.mutRate))) none = _
  congr 1
  refine List.ext_getElem (by simpa using hl) fun i hi hi' => ?_
  rw [List.length_mapIdx] at hi
  rw [List.getElem_mapIdx, List.getD_eq_getElem _ _ hi, List.getD_eq_getElem _ _ hi']
  cases g[i] <;> cases g'[i] <;> simp [h0]

theorem run_each_ok {α β : Type} (ev : Eval K) (f : α → Prog K β) (r : α → β) : ∀ l : List α, (∀ a ∈ l, (f a).run ev = .ok (r a)) → (Prog.each f l).run ev = .ok (l.map r)
  | [], _ => rfl
  | a :: rest, h => by
    change ((f a).bind fun b => (Prog.each f rest).bind fun bs => .ret (b :: bs)).run ev = _
    rw [Prog.run_bind, h a (List.mem_cons_self ..)]
    dsimp only
    rw [Prog.run_bind, run_each_ok ev f r rest fun a ha => h a (List.mem_cons_of_mem _ ha)]
    rfl

theorem run_aged (ev : Eval K) (o : Aged K) (st : SolState K) (h : ev o.indiv.genome = .ok st) : (o.evaluate).run ev = .ok (agedSol o.indiv.genome st o.age) := by
  obtain ⟨⟨g, s⟩, a⟩ := o
  unfold Aged.evaluate Indiv.evaluate
  simp only [Prog.bind, Prog.run] at h ⊢
  rw [h]
  rfl

theorem run_each_append {α β : Type} (ev : Eval K) (f : α → Prog K β) (l1 l2 : List α) (r1 r2 : List β) (h1 : (Prog.each f l1).run ev = .ok r1)
    (h2 : (Prog.each f l2).run ev = .ok r2) : (Prog.each f (l1 ++ l2)).run ev = .ok (r1 ++ r2) := by
  induction l1 generalizing r1 with
  | nil => cases h1; exact h2
  | cons a rest ih =>
    change ((f a).bind fun b => (Prog.each f rest).bind fun bs => .ret (b :: bs)).run ev = _ at h1
    rw [Prog.run_bind] at h1
    change ((f a).bind fun b => (Prog.each f (rest ++ l2)).bind fun bs => .ret (b :: bs)).run ev = _
    rw [Prog.run_bind]
    cases ha : (f a).run ev with
    | error e => rw [ha] at h1; cases h1
    | ok b =>
      rw [ha] at h1
      dsimp only at h1 ⊢
      rw [Prog.run_bind] at h1 ⊢
      cases hr : (Prog.each f rest).run ev with
      | error e => rw [hr] at h1; cases h1
      | ok bs =>
        rw [hr] at h1
        rw [ih bs hr]
        cases h1
        rfl

theorem run_replicate (ev : Eval K) (o : Aged K) (st : SolState K) (h : ev o.indiv.genome = .ok st) (n : Nat) :
    (Prog.each Aged.evaluate (List.replicate n o)).run ev = .ok (List.replicate n (agedSol o.indiv.genome st o.age)) := by
  rw [run_each_ok ev Aged.evaluate (fun o' => agedSol o.indiv.genome st o'.age) _ fun o' ho' => by rw [List.eq_of_mem_replicate ho']; exact run_aged ev o st h]
  rw [List.map_replicate]

/-- One generation when all survivors are the same solution `g`, whose children become `g'`. -/
theorem sasStep_turn (cfg : SasCfg K) (h0 : 0 < cfg.mutRate) (ev : Eval K) (s : SasState K) (g g' : List Bool) (hl : g.length = g'.length) (st st' : SolState K)
    (hg : ev g = .ok st) (hg' : ev g' = .ok st') (m : Nat) (age : Int) (hp : ageing cfg.initialSize s.pop = .ok (List.replicate (2 * m) (agedSol g st age))) :
    ∃ s', (sasStep cfg s (turnDraw cfg g g')).run ev = .ok s' ∧ s'.pop = List.replicate (2 * m) (agedSol g st age) ++ List.replicate (2 * m) (agedSol g' st' 3) := by
  refine ⟨⟨List.replicate (2 * m) (agedSol g st age) ++ List.replicate (2 * m) (agedSol g' st' 3), s.sizes ++ [s.pop.length]⟩, ?_, rfl⟩
  · unfold sasStep
    rw [hp]
    rw [Prog.run_bind_ok (Prog.run_lift _ _)]
    rw [Prog.run_bind_ok (a := List.replicate (2 * m) ⟨g, some st⟩)]
    · rw [Prog.run_bind_ok (a := List.replicate (2 * m) (agedSol g st age) ++ List.replicate (2 * m) (agedSol g' st' 3))]
      · rfl
      · rw [gaMutate_turn cfg h0 g g' hl, List.map_replicate]
        exact run_each_append ev _ _ _ _ _ (run_replicate ev (agedSol g st age) st hg _) (run_replicate ev ⟨⟨g', none⟩, 3⟩ st' hg' _)
    · rw [Prog.run_lift, List.map_replicate]
      refine sagaChildren_replicate _ (fun k b A B => ?_) m 0 _
      unfold crossoverA
      rw [if_neg]
      exact not_lt.mpr (le_max_right _ _)

/-- From `n` new copies of `g` to `2 n` new copies of the better `g'` in two generations. -/
theorem sas_double (cfg : SasCfg K) (hs : 1 ≤ cfg.initialSize) (h0 : 0 < cfg.mutRate) (ev : Eval K) (s : SasState K) (g g' : List Bool) (hl : g.length = g'.length)
    (st st' : SolState K) (hg : ev g = .ok st) (hg' : ev g' = .ok st') (hlt : st.fitness < st'.fitness) (m : Nat) (hm : 1 ≤ m)
    (hpop : s.pop = List.replicate (2 * m) (agedSol g st 3)) :
    ∃ s', (Prog.forEach (sasStep cfg) [turnDraw cfg g g', turnDraw cfg g' g'] s).run ev = .ok s' ∧ s'.pop = List.replicate (2 * (2 * m)) (agedSol g' st' 3) := by
  obtain ⟨s1, r1, e1⟩ := sasStep_turn cfg h0 ev s g g' hl st st' hg hg' m 1 (by rw [hpop]; exact ageing_same _ hs _ (by omega) g st)
  obtain ⟨s2, r2, e2⟩ := sasStep_turn cfg h0 ev s1 g' g' rfl st' st' hg' hg' m 3 (by rw [e1]; exact ageing_replace _ hs _ (by omega) g g' st st' hlt)
  refine ⟨s2, ?_, ?_⟩
  · rw [Prog.run_forEach_cons r1, Prog.run_forEach_cons r2]
    rfl
  · rw [e2, List.replicate_append_replicate]
    congr 1
    ring

/-- The draws of `2 k` generations that follow the chain. -/
def chainDraws (cfg : SasCfg K) (g : Nat → List Bool) (start : Nat) : Nat → List (SasDraw K)
  | 0 => []
  | k + 1 => turnDraw cfg (g start) (g (start + 1)) :: turnDraw cfg (g (start + 1)) (g (start + 1)) :: chainDraws cfg g (start + 1) k

theorem chain_run (cfg : SasCfg K) (hs : 1 ≤ cfg.initialSize) (h0 : 0 < cfg.mutRate) (ev : Eval K) (g : Nat → List Bool) (st : Nat → SolState K) (top : Nat)
    (hl : ∀ i, (g i).length = (g 0).length) (hg : ∀ i, i ≤ top → ev (g i) = .ok (st i)) (hlt : ∀ i, i < top → (st i).fitness < (st (i + 1)).fitness) (k : Nat) :
    ∀ start m s, start + k ≤ top → 1 ≤ m → s.pop = List.replicate (2 * m) (agedSol (g start) (st start) 3) →
      ∃ s', (Prog.forEach (sasStep cfg) (chainDraws cfg g start k) s).run ev = .ok s' ∧ s'.pop.length = 2 * m * 2 ^ k := by
  induction k with
  | zero =>
    intro start m s _ _ hpop
    exact ⟨s, rfl, by rw [hpop]; simp⟩
  | succ k ih =>
    intro start m s hk hm hpop
    obtain ⟨s1, r1, e1⟩ := sas_double cfg hs h0 ev s (g start) (g (start + 1)) (by rw [hl, hl (start + 1)]) (st start) (st (start + 1)) (hg _ (by omega)) (hg _ (by omega))
      (hlt _ (by omega)) m hm hpop
    obtain ⟨s2, r2, e2⟩ := ih (start + 1) (2 * m) s1 (by omega) (by omega) e1
    refine ⟨s2, ?_, by rw [e2]; ring⟩
    change (Prog.forEach (sasStep cfg) ([turnDraw cfg (g start) (g (start + 1)), turnDraw cfg (g (start + 1)) (g (start + 1))] ++ chainDraws cfg g (start + 1) k) s).run ev = _
    rw [run_forEach_append, Prog.run_bind, r1]
    exact r2

theorem chainDraws_length (cfg : SasCfg K) (g : Nat → List Bool) (k : Nat) : ∀ start, (chainDraws cfg g start k).length = 2 * k := by
  induction k with
  | zero => intro _; rfl
  | succ k ih => intro start; simp only [chainDraws, List.length_cons, ih]; omega

theorem chainDraws_unit (cfg : SasCfg K) (hc : cfg.crossRate < 1) (h0 : 0 < cfg.mutRate) (h1 : cfg.mutRate < 1) (g : Nat → List Bool) (k : Nat) :
    ∀ start, ∀ d ∈ chainDraws cfg g start k, d.Unit := by
  induction k with
  | zero => intro _ d hd; cases hd
  | succ k ih =>
    intro start d hd
    rcases List.mem_cons.mp hd with rfl | hd
    · exact turnDraw_unit cfg hc h0 h1 _ _
    · rcases List.mem_cons.mp hd with rfl | hd
      · exact turnDraw_unit cfg hc h0 h1 _ _
      · exact ih _ d hd

/-- C129 is false: whenever there are `k + 1` selections of rules with increasing fitness, possible random numbers let an even number of equal solutions grow to `2 ^ k` times as many in
`2 k` generations, whatever the initial size that the cutoff refers to. -/
theorem C129_refuted (cfg : SasCfg K) (hs : 1 ≤ cfg.initialSize) (hc : cfg.crossRate < 1) (h0 : 0 < cfg.mutRate) (h1 : cfg.mutRate < 1) (ev : Eval K) (g : Nat → List Bool)
    (st : Nat → SolState K) (k : Nat) (hl : ∀ i, (g i).length = (g 0).length) (hg : ∀ i, i ≤ k → ev (g i) = .ok (st i))
    (hlt : ∀ i, i < k → (st i).fitness < (st (i + 1)).fitness) (m : Nat) (hm : 1 ≤ m) :
    ∃ draws : List (SasDraw K), draws.length = 2 * k ∧ (∀ d ∈ draws, d.Unit) ∧
      ∃ s, (sas cfg draws (List.replicate (2 * m) ⟨⟨g 0, none⟩, 3⟩)).run ev = .ok s ∧ s.pop.length = 2 * m * 2 ^ k := by
  refine ⟨chainDraws cfg g 0 k, chainDraws_length cfg g k 0, chainDraws_unit cfg hc h0 h1 g k 0, ?_⟩
  obtain ⟨s, r, e⟩ := chain_run cfg hs h0 ev g st k hl hg hlt k 0 m ⟨List.replicate (2 * m) (agedSol (g 0) (st 0) 3), []⟩ (by omega) hm rfl
  refine ⟨s, ?_, e⟩
  unfold sas
  rw [Prog.run_bind_ok (run_replicate ev ⟨⟨g 0, none⟩, 3⟩ (st 0) (hg 0 (by omega)) _)]
  exact r

/-- The number of selected rules as fitness. -/
def sizeEval : Eval ℚ := fun g => .ok ⟨1, g.length, g.count true, g.count true⟩

/-- The selection of the first `i` of sixteen rules. -/
def firstRules (i : Nat) : List Bool := List.replicate (min i 16) true ++ List.replicate (16 - min i 16) false

/-- With the default settings (32 generations, 100 solutions) and sixteen rules the population can grow to 6553600 solutions. -/
theorem C129_default_refuted : ∃ draws : List (SasDraw ℚ), draws.length = 32 ∧ (∀ d ∈ draws, d.Unit) ∧
    ∃ s, (sas ⟨100, 9 / 10, 1 / 1000⟩ draws (List.replicate 100 ⟨⟨firstRules 0, none⟩, 3⟩)).run sizeEval = .ok s ∧ s.pop.length = 6553600 := by
  have hcount : ∀ i, i ≤ 16 → (firstRules i).count true = i := by
    intro i hi
    unfold firstRules
    rw [List.count_append, List.count_replicate, List.count_replicate]
    simp
    omega
  have hlen : ∀ i, (firstRules i).length = 16 := by
    intro i
    unfold firstRules
    rw [List.length_append, List.length_replicate, List.length_replicate]
    omega
  exact C129_refuted ⟨100, 9 / 10, 1 / 1000⟩ (by decide) (by decide +kernel) (by decide +kernel) (by decide +kernel) sizeEval firstRules
    (fun i => ⟨1, 16, i, i⟩) 16 (fun i => by rw [hlen, hlen])
    (fun i hi => by unfold sizeEval; rw [hlen, hcount i hi])
    (fun i _ => by change (i : ℚ) < ((i + 1 : ℕ) : ℚ); exact_mod_cast Nat.lt_succ_self i) 50 (by decide)

end Suprb
