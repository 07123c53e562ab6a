import Verif.Props.NoveltySurvivors
import Verif.Props.NoveltyFit
import Verif.Lemmas.Novelty

/-!
# What novelty search creates and keeps (C167)

Every generation pairs up the selected parents, so that a generation creates at most as many rules as parents were selected (one fewer if the number is odd), and
keeps at most `mu` of the new rules and `n_elitists` of the parents, the most novel ones.
-/

set_option autoImplicit false
set_option linter.unusedSectionVars false

namespace Suprb
open _root_.Spec (Pairs Point)
variable {R K : Type} [Field K] [LinearOrder K] [IsStrictOrderedRing K]

theorem pairUp_length {α : Type} (l : List α) : (pairUp l).length = l.length / 2 := by
  induction l using pairUp.induct with
  | case1 a b rest ih => rw [pairUp, List.length_cons, ih, List.length_cons, List.length_cons]; omega
  | case2 l h =>
    match l, h with
    | [], _ => simp [pairUp]
    | [a], _ => simp [pairUp]
    | a :: b :: rest, h => exact (h a b rest rfl).elim

theorem nsChildren_length {Z : Type} (breed : R → R → Z → Except PyErr (List R)) (hb : ∀ a b z cs, breed a b z = .ok cs → cs.length = 2) (z : Nat → Z) (i : Nat)
    (ps : List (R × R)) (cs : List R) (h : nsChildren breed z i ps = .ok cs) : cs.length = 2 * ps.length := by
  induction ps generalizing i cs with
  | nil => injection h with h; rw [← h]; rfl
  | cons p rest ih =>
    obtain ⟨a, b⟩ := p
    unfold nsChildren at h
    split at h
    · cases h
    · rename_i cs1 h1
      split at h
      · cases h
      · rename_i cs2 h2
        injection h with h
        rw [← h, List.length_append, hb _ _ _ _ h1, ih _ _ h2, List.length_cons]
        omega

/-- C167: the children of a list of parents, before those without matched samples are dropped: two for every two parents, an odd parent has none. -/
theorem C167_children {Z : Type} (breed : R → R → Z → Except PyErr (List R)) (hb : ∀ a b z cs, breed a b z = .ok cs → cs.length = 2) (z : Nat → Z)
    (parents cs : List R) (h : nsChildren breed z 0 (pairUp parents) = .ok cs) : cs.length = 2 * (parents.length / 2) := by
  rw [nsChildren_length breed hb z 0 _ cs h, pairUp_length]

example : (nsChildren (fun a b (z : Nat) => .ok [a + z, b + z]) (fun i => 10 * i) 0 (pairUp [1, 2, 3, 4, 5]) : Except PyErr (List Nat)) = .ok [1, 2, 13, 14] := by
  decide +kernel

theorem scoreAll_length (V : NsView R K) (v : NsVariant K) (t : NsType) (k : Nat) (archive rules : List Nat) (st st' : Store R K)
    (h : scoreAll V v t k archive rules st = .ok st') : st'.length = st.length := by
  induction rules generalizing st with
  | nil => injection h with h; rw [← h]
  | cons r rest ih =>
    unfold scoreAll at h
    split at h
    · cases h
    · split at h
      · cases h
      · split at h
        · cases h
        · rw [ih _ h, List.length_set]

theorem appendDistance_length (st st' : Store R K) (r : Nat) (x : K) (h : appendDistance st r x = .ok st') : st'.length = st.length := by
  unfold appendDistance at h
  split at h
  · cases h
  · split at h
    · cases h
    · injection h with h; rw [← h, List.length_set]

theorem distancesTo_length (V : NsView R K) (r : Nat) (l : List Nat) (st st' : Store R K) (h : distancesTo V r l st = .ok st') : st'.length = st.length := by
  induction l generalizing st with
  | nil => injection h with h; rw [← h]
  | cons a rest ih =>
    unfold distancesTo at h
    split at h
    · split at h
      · cases h
      · split at h
        · cases h
        · rename_i st1 h1
          split at h
          · cases h
          · rename_i st2 h2
            rw [ih _ h, appendDistance_length _ _ _ _ h2, appendDistance_length _ _ _ _ h1]
    · cases h

theorem joinArchive_length (V : NsView R K) (st st' : Store R K) (archive : List Nat) (r : Nat) (h : joinArchive V st archive r = .ok st') :
    st'.length = st.length := by
  unfold joinArchive at h
  split at h
  · cases h
  · split at h
    · split at h
      · cases h
      · rename_i st1 h1
        split at h
        · cases h
        · rename_i st2 h2
          injection h with h
          rw [← h, List.length_modify, appendDistance_length _ _ _ _ h2, distancesTo_length _ _ _ _ _ h1, List.length_set]
    · injection h with h; rw [← h]

theorem joinAll_length (V : NsView R K) (l : List Nat) (st st' : Store R K) (archive archive' : List Nat) (h : joinAll V l st archive = .ok (st', archive')) :
    st'.length = st.length := by
  induction l generalizing st archive with
  | nil => injection h with h; injection h with h _; rw [← h]
  | cons a rest ih =>
    unfold joinAll at h
    split at h
    · cases h
    · rename_i st1 h1
      rw [ih _ _ h, joinArchive_length _ _ _ _ _ h1]

theorem noveltyScores_length (V : NsView R K) (v : NsVariant K) (t : NsType) (k : Nat) (archive rules ns : List Nat) (st st' : Store R K)
    (h : noveltyScores V v t k archive rules st = .ok (st', ns)) : st'.length = st.length := by
  unfold noveltyScores at h
  dsimp only at h
  split at h
  · cases h
  · split at h
    · cases h
    · rename_i st1 archive1 h1
      split at h
      · cases h
      · rename_i st2 h2
        have he : st2.length = st.length := by rw [scoreAll_length _ _ _ _ _ _ _ _ h2, joinAll_length _ _ _ _ _ _ h1]
        split at h
        · split at h
          · cases h
          · injection h with h
            injection h with e1 e2
            rw [← e1, he]
        · injection h with h
          injection h with e1 e2
          rw [← e1, he]

theorem ruleSelection_length (V : NsView R K) (cfg : NsCfg K) (a : NsArchive) (s s' : NsState R K) (rules best : List Nat) (n roh : Nat)
    (h : ruleSelection V cfg a s rules n roh = .ok (s', best)) : s'.store.length = s.store.length := by
  unfold ruleSelection at h
  split at h
  · cases h
  · rename_i st ns hns
    injection h with h
    injection h with e1 e2
    rw [← e1]
    exact noveltyScores_length _ _ _ _ _ _ _ _ _ hns

theorem pick_length (l positions out : List Nat) (h : pick l positions = .ok out) : out.length = positions.length := by
  exact mapM_length _ _ _ h

/-- What one generation creates and keeps: at most twice as many rules as there are pairs of parents are new, and if there is a new population it has at most `mu` new and
`n_elitists` old rules. -/
theorem nsStep_size {Z : Type} (V : NsView R K) (cfg : NsCfg K) (breed : R → R → Z → Except PyErr (List R))
    (hb : ∀ a b z cs, breed a b z = .ok cs → cs.length = 2) (valid : R → Bool) (s s' : NsState R K) (d : NsDraw R Z) (lam : Nat)
    (hd : ∀ l ps, d.parents l = .ok ps → ps.length ≤ lam) (h : nsStep V cfg breed valid s d = .ok s') :
    s'.store.length ≤ s.store.length + 2 * (lam / 2) ∧
      ((s'.population = s.population ∧ s'.best = s.best) ∨ (s'.best.length ≤ cfg.mu ∧ s'.population.length ≤ s'.best.length + cfg.nElitists)) := by
  unfold nsStep at h
  split at h
  · cases h
  · rename_i parents hp
    have hpl : parents.length ≤ lam := by
      unfold selectParents at hp
      split at hp
      · cases hp
      · rename_i ps hps
        rw [pick_length _ _ _ hp]
        exact hd _ _ hps
    split at h
    · injection h with h; rw [← h]; exact ⟨by omega, .inl ⟨rfl, rfl⟩⟩
    · split at h
      · cases h
      · rename_i children hch
        dsimp only at h
        split at h
        · injection h with h; rw [← h]; exact ⟨by omega, .inl ⟨rfl, rfl⟩⟩
        · split at h
          · cases h
          · rename_i s2 best h2
            split at h
            · cases h
            · rename_i s3 bp h3
              injection h with h
              rw [← h]
              have l2 := ruleSelection_length _ _ _ _ _ _ _ _ _ h2
              have l3 := ruleSelection_length _ _ _ _ _ _ _ _ _ h3
              have b2 := (ruleSelection_spec V cfg _ _ _ _ _ _ _ h2).2.2.1
              have b3 := (ruleSelection_spec V cfg _ _ _ _ _ _ _ h3).2.2.1
              have hc := nsChildren_length breed hb _ _ _ _ hch
              rw [pairUp_length] at hc
              have h4 : (parents.filterMap fun r => s.store[r]?.map NsObj.rule).length ≤ parents.length := List.length_filterMap_le _ _
              have h5 : (children.filter valid).length ≤ children.length := List.length_filter_le _ _
              refine ⟨?_, .inr ⟨b2, ?_⟩⟩
              · dsimp only
                rw [l3, l2]
                dsimp only
                rw [List.length_append, List.length_map]
                omega
              · dsimp only
                rw [List.length_append]
                omega

/-- C167: a generation leaves the population as it is, or replaces it by at most `mu` rules created in this generation, followed by at most `n_elitists` of the parents, which
were in the population before. Every rule created in the generation comes after all earlier ones. -/
theorem C167_children_and_elitists {Z : Type} (V : NsView R K) (cfg : NsCfg K) (breed : R → R → Z → Except PyErr (List R)) (valid : R → Bool) (s s' : NsState R K)
    (d : NsDraw R Z) (h : nsStep V cfg breed valid s d = .ok s') :
    (s'.population = s.population ∧ s'.best = s.best) ∨
      ∃ parents elitists, selectParents s d = .ok parents ∧ s'.population = s'.best ++ elitists ∧ s'.best.length ≤ cfg.mu ∧ elitists.length ≤ cfg.nElitists ∧
        (∀ r ∈ s'.best, s.store.length ≤ r ∧ r < s'.store.length) ∧ ∀ r ∈ elitists, r ∈ parents ∧ r ∈ s.population := by
  unfold nsStep at h
  split at h
  · cases h
  · rename_i parents hp
    have hpm : ∀ r ∈ parents, r ∈ s.population := by
      unfold selectParents at hp
      split at hp
      · cases hp
      · exact pick_mem _ _ _ hp
    split at h
    · injection h with h; rw [← h]; exact .inl ⟨rfl, rfl⟩
    · split at h
      · cases h
      · rename_i children hch
        dsimp only at h
        split at h
        · injection h with h; rw [← h]; exact .inl ⟨rfl, rfl⟩
        · split at h
          · cases h
          · rename_i s2 best h2
            split at h
            · cases h
            · rename_i s3 bp h3
              injection h with h
              rw [← h]
              have l2 := ruleSelection_length _ _ _ _ _ _ _ _ _ h2
              have l3 := ruleSelection_length _ _ _ _ _ _ _ _ _ h3
              obtain ⟨_, m2, b2, _⟩ := ruleSelection_spec V cfg _ _ _ _ _ _ _ h2
              obtain ⟨_, m3, b3, _⟩ := ruleSelection_spec V cfg _ _ _ _ _ _ _ h3
              refine .inr ⟨parents, bp, hp, rfl, b2, b3, fun r hr => ?_, fun r hr => ⟨m3 r hr, hpm r (m3 r hr)⟩⟩
              obtain ⟨i, hi, rfl⟩ := List.mem_map.mp (m2 r hr)
              have hi := List.mem_range.mp hi
              dsimp only
              rw [l3, l2]
              dsimp only
              rw [List.length_append, List.length_map]
              omega

/-- C167: let every selection of parents give at most `lam` of them, and every pair two children. A call of novelty search with `n` generations starts with the rules of the
pool and the initial rules and creates at most `n * 2 * (lam / 2)` further ones. The population never has more than `mu + n_elitists` rules unless the initial one has, and
at most `mu` rules are candidates for the result. -/
theorem C167_created_and_kept {Z : Type} (V : NsView R K) (cfg : NsCfg K) (breed : R → R → Z → Except PyErr (List R))
    (hb : ∀ a b z cs, breed a b z = .ok cs → cs.length = 2) (valid : R → Bool) (lam : Nat) (draws : List (NsDraw R Z))
    (hd : ∀ d ∈ draws, ∀ l ps, d.parents l = .ok ps → ps.length ≤ lam) (pool : Store R K) (initial : List R) (s : NsState R K)
    (h : draws.foldlM (nsStep V cfg breed valid) (nsStart pool initial) = .ok s) :
    s.store.length ≤ pool.length + initial.length + draws.length * (2 * (lam / 2)) ∧
      s.population.length ≤ max initial.length (cfg.mu + cfg.nElitists) ∧ s.best.length ≤ cfg.mu := by
  have key : ∀ (draws : List (NsDraw R Z)) (s0 : NsState R K), (∀ d ∈ draws, ∀ l ps, d.parents l = .ok ps → ps.length ≤ lam) →
      draws.foldlM (nsStep V cfg breed valid) s0 = .ok s → s0.population.length ≤ max initial.length (cfg.mu + cfg.nElitists) → s0.best.length ≤ cfg.mu →
      s.store.length ≤ s0.store.length + draws.length * (2 * (lam / 2)) ∧ s.population.length ≤ max initial.length (cfg.mu + cfg.nElitists) ∧
        s.best.length ≤ cfg.mu := by
    intro draws
    induction draws with
    | nil => intro s0 _ h h1 h2; injection h with h; rw [← h]; exact ⟨by simp, h1, h2⟩
    | cons d rest ih =>
      intro s0 hd h h1 h2
      rw [List.foldlM_cons] at h
      cases he : nsStep V cfg breed valid s0 d with
      | error e => rw [he] at h; cases h
      | ok s1 =>
        rw [he] at h
        obtain ⟨g1, g2⟩ := nsStep_size V cfg breed hb valid s0 s1 d lam (hd d (List.mem_cons_self ..)) he
        obtain ⟨k1, k2, k3⟩ := ih s1 (fun d' hd' => hd d' (List.mem_cons_of_mem _ hd')) h
          (by rcases g2 with ⟨e, _⟩ | ⟨e1, e2⟩
              · rw [e]; exact h1
              · exact le_max_of_le_right (by omega))
          (by rcases g2 with ⟨_, e⟩ | ⟨e1, e2⟩
              · rw [e]; exact h2
              · exact e1)
        refine ⟨?_, k2, k3⟩
        rw [List.length_cons, Nat.add_mul, Nat.one_mul]
        omega
  have := key draws (nsStart pool initial) hd h (by simp [nsStart]) (by simp [nsStart])
  refine ⟨?_, this.2⟩
  have h1 := this.1
  simp only [nsStart, List.length_append, List.length_map] at h1
  exact h1

/-- C167: so a call returns at most `mu` rules, however many are requested. -/
theorem C167_returned {Z : Type} (V : NsView R K) (cfg : NsCfg K) (breed : R → R → Z → Except PyErr (List R))
    (hb : ∀ a b z cs, breed a b z = .ok cs → cs.length = 2) (valid : R → Bool) (accept : R → Except PyErr Bool) (nRules lam : Nat) (draws : List (NsDraw R Z))
    (hd : ∀ d ∈ draws, ∀ l ps, d.parents l = .ok ps → ps.length ≤ lam) (pool : Store R K) (initial rules : List R)
    (h : nsOptimize V cfg breed valid accept nRules pool initial draws = .ok rules) : rules.length ≤ min nRules cfg.mu := by
  unfold nsOptimize at h
  split at h
  · cases h
  · rename_i s hs
    have hk := (C167_created_and_kept V cfg breed hb valid lam draws hd pool initial s hs).2.2
    refine (filterInvalid_length accept _ rules h).trans ?_
    rw [List.length_map, List.length_take]
    omega

/-- C167: crossover, mutation, constraint and fit give two children for every pair. -/
theorem C167_two_children {d : Nat} {M : Type} (L : Learner K d M) (ff : RuleFitness K d) (X : List (Point K d)) (y : List K) (m : Mutation) (r rate : K)
    (fb : Pairs K d) (A B : Rule K d M) (z : BreedDraw K d) (cs : List (Rule K d M)) (h : breedRules L ff X y m r rate fb A B z = .ok cs) : cs.length = 2 := by
  unfold breedRules at h
  split at h
  · cases h
  · split at h
    · cases h
    · split at h
      · cases h
      · injection h with h; rw [← h]; rfl

/-- C167: of the rules handed to the basic or biased novelty calculation the `n` most novel ones are kept: as many as there are, up to `n`, and no rule that is not kept
has a larger score than one that is (at equal scores, no larger experience). -/
theorem C167_most_novel (V : NsView R K) (cfg : NsCfg K) (hv : cfg.variant ≠ .progressive ∧ cfg.variant ≠ .pareto) (ht : cfg.type.NoFilter) (a : NsArchive)
    (ha : a.Possible) (s s' : NsState R K) (rules best : List Nat) (n roh : Nat) (h : ruleSelection V cfg a s rules n roh = .ok (s', best)) :
    best.length = min n rules.length ∧ (∀ r ∈ best, r ∈ rules) ∧ ∀ r ∈ best, ∀ t ∈ rules, t ∉ best → noveltyOf s'.store t ≤ noveltyOf s'.store r ∧
      (noveltyOf s'.store t = noveltyOf s'.store r → experienceAt V s'.store t ≤ experienceAt V s'.store r) := by
  have hsub := (ruleSelection_spec V cfg _ _ _ _ _ _ _ h).2.1
  unfold ruleSelection at h
  split at h
  · cases h
  · rename_i st ns hns
    have hns' := C70_all_survive V cfg.variant hv cfg.type ht cfg.k s.archive rules ns s.store st hns
    subst hns'
    injection h with h
    injection h with e1 e2
    have hst : s'.store = st := by rw [← e1]
    have hperm : (if cfg.usePopulation = true then (ns, ns) else archiveAdds V st a ns roh).2.Perm ns := by
      split
      · exact List.Perm.refl _
      · cases a with
        | novel => exact List.Perm.refl _
        | none_ => exact List.Perm.refl _
        | random perm =>
          have hp : ((perm ns.length).filterMap fun i => ns[i]?).Perm ((List.range ns.length).filterMap fun i => ns[i]?) := (ha ns.length).filterMap _
          have hr : ((List.range ns.length).filterMap fun i => ns[i]?) = ns := by
            apply List.ext_getElem?
            intro i
            have : ((List.range ns.length).filterMap fun i => ns[i]?) = ((List.range ns.length).map fun i => ns.getD i 0) := by
              rw [← List.filterMap_eq_map]
              apply List.filterMap_congr
              intro j hj
              have := List.mem_range.mp hj
              simp [List.getD, this]
            rw [this]
            by_cases hi : i < ns.length
            · simp [hi]
            · simp [hi]
          rw [hr] at hp
          exact hp
    rw [hst]
    generalize hl : (if cfg.usePopulation = true then (ns, ns) else archiveAdds V st a ns roh).2 = l at hperm e2
    have hp2 := (sortedDesc_perm (fun r => toLex (noveltyOf st r, experienceAt V st r)) l).trans hperm
    have hs2 := sortedDesc_pairwise (fun r => toLex (noveltyOf st r, experienceAt V st r)) l
    change (sortedDesc (fun r => toLex (noveltyOf st r, experienceAt V st r)) l).take n = best at e2
    generalize sortedDesc (fun r => toLex (noveltyOf st r, experienceAt V st r)) l = srt at hp2 hs2 e2
    refine ⟨by rw [← e2, List.length_take, hp2.length_eq], hsub, fun r hr t ht' hnt => ?_⟩
    have hmem : t ∈ srt.drop n := by
      have : t ∈ srt.take n ++ srt.drop n := by rw [List.take_append_drop]; exact hp2.symm.subset ht'
      rcases List.mem_append.mp this with h1 | h1
      · exact absurd (e2 ▸ h1) hnt
      · exact h1
    have hpw : toLex (noveltyOf st t, experienceAt V st t) ≤ toLex (noveltyOf st r, experienceAt V st r) := by
      rw [← List.take_append_drop n srt, List.pairwise_append] at hs2
      exact hs2.2.2 r (e2 ▸ hr) t hmem
    rw [Prod.Lex.toLex_le_toLex] at hpw
    rcases hpw with h1 | ⟨h1, h2⟩
    · exact ⟨h1.le, fun he => absurd he h1.ne⟩
    · exact ⟨h1.le, fun _ => h2⟩

/-! ### Examples -/

/-- Two generations with three parents each, of which one is left over: four new rules. The first two rules of `nsX` are the initial ones. -/
def nsSizes (nRules : Nat) (positions : List Nat) : Except PyErr (Nat × Nat × Nat × Nat) := do
  let a ← (intervalRule 0 0).fit meanLearner negErr nsX [0, 2, 4]
  let b ← (intervalRule 1 2).fit meanLearner negErr nsX [0, 2, 4]
  let draw : NsDraw (Rule ℚ 1 ℚ) (BreedDraw ℚ 1) := ⟨selectAtRandom fun _ => positions, fun _ => ⟨1, fun _ => true, ![(0, 1)], ![(0, 0)]⟩, .novel, .novel⟩
  let breed := breedRules meanLearner negErr nsX [0, 2, 4] .normal 0 (1/2) ![(0, 9)]
  let s ← [draw, draw].foldlM (nsStep ruleView ⟨2, 1, 1, false, .basic, .plain, 1⟩ breed validRule) (nsStart [] [a, b])
  let out ← nsOptimize ruleView ⟨2, 1, 1, false, .basic, .plain, 1⟩ breed validRule (fun _ => .ok true) nRules [] [a, b] [draw, draw]
  pure (s.store.length, s.population.length, s.best.length, out.length)

example : nsSizes 5 [0, 1, 0] = .ok (2 + 2 * 2, 3, 2, 2) := by decide +kernel

/-- The parents of the example are at most three. -/
example : ∀ (l : List (Rule ℚ 1 ℚ)) (ps : List Nat), selectAtRandom (fun _ => [0, 1, 0]) l = .ok ps → ps.length ≤ 3 := by
  intro l ps h
  unfold selectAtRandom at h
  split at h
  · cases h
  · injection h with h; rw [← h]; simp

end Suprb
