import Verif.Props.Novelty
import Verif.Props.Discovery
import Verif.Props.ES
import Verif.Lemmas.Composition
import Mathlib.Algebra.Order.BigOperators.Group.List

/-!
# What novelty search and random search return (claims C30, C33 and C78)
-/

set_option autoImplicit false
set_option linter.unusedSectionVars false

namespace Suprb

variable {K : Type} [Field K] [LinearOrder K] [IsStrictOrderedRing K] {R : Type}

/-- The objects of the store keep their rules. -/
def Ext (st st' : Store R K) : Prop := ∀ (r : Nat) (o : NsObj R K), st[r]? = some o → ∃ o', st'[r]? = some o' ∧ o'.rule = o.rule

theorem Ext.refl (st : Store R K) : Ext st st := fun _ o h => ⟨o, h, rfl⟩

theorem Ext.trans {a b c : Store R K} (h1 : Ext a b) (h2 : Ext b c) : Ext a c := fun r o h => by
  obtain ⟨o', h', e'⟩ := h1 r o h
  obtain ⟨o'', h'', e''⟩ := h2 r o' h'
  exact ⟨o'', h'', e''.trans e'⟩

theorem Ext.set (st : Store R K) (r : Nat) (o o' : NsObj R K) (ho : st[r]? = some o) (he : o'.rule = o.rule) : Ext st (st.set r o') := by
  intro i p hp
  rw [List.getElem?_set]
  by_cases hri : r = i
  · subst hri
    rw [ho] at hp
    injection hp with hp
    rw [if_pos rfl, if_pos (List.getElem?_eq_some_iff.mp ho).1, ← hp]
    exact ⟨o', rfl, he⟩
  · rw [if_neg hri]
    exact ⟨p, hp, rfl⟩

theorem appendDistance_ext (st st' : Store R K) (r : Nat) (x : K) (h : appendDistance st r x = .ok st') : Ext st st' := by
  unfold appendDistance at h
  split at h
  · cases h
  · rename_i o ho
    split at h
    · cases h
    · injection h with h
      rw [← h]
      exact Ext.set st r o _ ho rfl

theorem distancesTo_ext (V : NsView R K) (r : Nat) (archive : List Nat) (st st' : Store R K) (h : distancesTo V r archive st = .ok st') : Ext st st' := by
  induction archive generalizing st with
  | nil => injection h with h; rw [← h]; exact Ext.refl _
  | cons a rest ih =>
    unfold distancesTo at h
    split at h
    · split at h
      · cases h
      · split at h
        · cases h
        · rename_i st1 h1
          split at h
          · cases h
          · rename_i st2 h2
            exact ((appendDistance_ext _ _ _ _ h1).trans (appendDistance_ext _ _ _ _ h2)).trans (ih st2 h)
    · cases h

theorem joinArchive_ext (V : NsView R K) (archive : List Nat) (r : Nat) (st st' : Store R K) (h : joinArchive V st archive r = .ok st') : Ext st st' := by
  unfold joinArchive at h
  split at h
  · cases h
  · rename_i o ho
    split at h
    · split at h
      · cases h
      · rename_i st1 h1
        split at h
        · cases h
        · rename_i st2 h2
          injection h with h
          rw [← h]
          have hset : Ext st (st.set r { o with distances := some [] }) := Ext.set st r o _ ho rfl
          refine ((hset.trans (distancesTo_ext V r archive _ st1 h1)).trans (appendDistance_ext _ _ _ _ h2)).trans ?_
          intro i p hp
          rw [List.getElem?_modify, hp]
          by_cases hri : r = i
          · exact ⟨_, rfl, by simp [hri]⟩
          · exact ⟨_, rfl, by simp [hri]⟩
    · injection h with h; rw [← h]; exact Ext.refl _

theorem joinAll_ext (V : NsView R K) (rules : List Nat) (st st' : Store R K) (archive archive' : List Nat)
    (h : joinAll V rules st archive = .ok (st', archive')) : Ext st st' := by
  induction rules generalizing st archive with
  | nil => injection h with h; injection h with h1 h2; rw [← h1]; exact Ext.refl _
  | cons r rest ih =>
    unfold joinAll at h
    split at h
    · cases h
    · rename_i st1 h1
      exact (joinArchive_ext V archive r st st1 h1).trans (ih st1 _ h)

theorem scoreAll_ext (V : NsView R K) (v : NsVariant K) (t : NsType) (k : Nat) (archive rules : List Nat) (st st' : Store R K)
    (h : scoreAll V v t k archive rules st = .ok st') : Ext st st' := by
  induction rules generalizing st with
  | nil => injection h with h; rw [← h]; exact Ext.refl _
  | cons a rest ih =>
    unfold scoreAll at h
    split at h
    · cases h
    · rename_i o ho
      split at h
      · cases h
      · split at h
        · cases h
        · rename_i s hs
          refine Ext.trans ?_ (ih _ h)
          refine Ext.set st a o _ ho ?_
          rfl

theorem filterRules_sub (V : NsView R K) (st : Store R K) (t : NsType) (refs out : List Nat) (h : filterRules V st t refs = .ok out) : ∀ r ∈ out, r ∈ refs := by
  unfold filterRules at h
  split at h
  · split at h
    · cases h
    · injection h with h
      rw [← h]
      exact fun r hr => (List.mem_filter.mp hr).1
  · injection h with h; rw [← h]; exact fun r hr => hr

theorem progressiveFilter_sub {α : Type} (fitness : α → WithBot K) (rules : List α) : ∀ r ∈ progressiveFilter fitness rules, r ∈ rules :=
  fun r hr => (C70_progressive fitness rules).2.1.subset hr

theorem noveltyScores_ext (V : NsView R K) (v : NsVariant K) (t : NsType) (k : Nat) (archive rules ns : List Nat) (st st' : Store R K)
    (h : noveltyScores V v t k archive rules st = .ok (st', ns)) : Ext st st' ∧ ∀ r ∈ ns, r ∈ rules := by
  unfold noveltyScores at h
  dsimp only at h
  split at h
  · cases h
  · rename_i filtered hf
    have hsub : ∀ r ∈ filtered, r ∈ rules := by
      intro r hr
      have := filterRules_sub V st t _ filtered hf r hr
      cases v with
      | progressive => exact progressiveFilter_sub _ _ r this
      | basic => exact this
      | pareto => exact this
      | biased _ _ => exact this
    split at h
    · cases h
    · rename_i st1 archive1 h1
      split at h
      · cases h
      · rename_i st2 h2
        have he := (joinAll_ext V filtered st st1 archive archive1 h1).trans (scoreAll_ext V v t k archive1 filtered st1 st2 h2)
        split at h
        · split at h
          · cases h
          · rename_i front hfr
            injection h with h
            injection h with e1 e2
            rw [← e1, ← e2]
            exact ⟨he, fun r hr => hsub r (paretoFront_mem _ _ _ _ hfr r hr)⟩
        · injection h with h
          injection h with e1 e2
          rw [← e1, ← e2]
          exact ⟨he, hsub⟩

theorem archiveAdds_sub (V : NsView R K) (st : Store R K) (a : NsArchive) (rules : List Nat) (n : Nat) :
    (∀ r ∈ (archiveAdds V st a rules n).1, r ∈ rules) ∧ (∀ r ∈ (archiveAdds V st a rules n).2, r ∈ rules) ∧ (archiveAdds V st a rules n).1.length ≤ n := by
  cases a with
  | novel => exact ⟨fun r hr => (sortedDesc_perm _ rules).subset (List.mem_of_mem_take hr), fun r hr => hr, List.length_take_le _ _⟩
  | none_ => exact ⟨fun r hr => (List.not_mem_nil hr).elim, fun r hr => hr, Nat.zero_le _⟩
  | random perm =>
    have hmem : ∀ r ∈ ((perm rules.length).filterMap fun i => rules[i]?), r ∈ rules := fun r hr => by
      obtain ⟨i, _, hi⟩ := List.mem_filterMap.mp hr
      exact List.mem_of_getElem? hi
    exact ⟨fun r hr => hmem r (List.mem_of_mem_take hr), hmem, List.length_take_le _ _⟩

theorem ruleSelection_spec (V : NsView R K) (cfg : NsCfg K) (a : NsArchive) (s s' : NsState R K) (rules best : List Nat) (n roh : Nat)
    (h : ruleSelection V cfg a s rules n roh = .ok (s', best)) :
    Ext s.store s'.store ∧ (∀ r ∈ best, r ∈ rules) ∧ best.length ≤ n ∧
      ∃ new, s'.archive = s.archive ++ new ∧ (∀ r ∈ new, r ∈ rules) ∧ (cfg.usePopulation = false → new.length ≤ roh) := by
  unfold ruleSelection at h
  split at h
  · cases h
  · rename_i st ns hns
    obtain ⟨h1, h2⟩ := noveltyScores_ext V _ _ _ _ _ _ _ _ hns
    injection h with h
    injection h with e1 e2
    rw [← e1, ← e2]
    obtain ⟨ha, hb, hc⟩ := archiveAdds_sub V st a ns roh
    refine ⟨h1, fun r hr => h2 r ?_, List.length_take_le _ _, _, rfl, fun r hr => h2 r ?_, ?_⟩
    · have := (sortedDesc_perm _ _).subset (List.mem_of_mem_take hr)
      split at this
      · exact this
      · exact hb r this
    · split at hr
      · exact hr
      · exact ha r hr
    · intro hu
      simp only [hu, Bool.false_eq_true, if_false]
      exact hc

/-- Rules that were bred from two rules and found valid. -/
def Bred {Z : Type} (breed : R → R → Z → Except PyErr (List R)) (valid : R → Bool) (r : R) : Prop :=
  valid r = true ∧ ∃ a b z cs, breed a b z = .ok cs ∧ r ∈ cs

theorem nsChildren_mem {Z : Type} (breed : R → R → Z → Except PyErr (List R)) (z : Nat → Z) (i : Nat) (ps : List (R × R)) (cs : List R)
    (h : nsChildren breed z i ps = .ok cs) : ∀ r ∈ cs, ∃ a b z cs', breed a b z = .ok cs' ∧ r ∈ cs' := by
  induction ps generalizing i cs with
  | nil => injection h with h; rw [← h]; simp
  | cons p rest ih =>
    obtain ⟨a, b⟩ := p
    unfold nsChildren at h
    split at h
    · cases h
    · rename_i cs1 h1
      split at h
      · cases h
      · rename_i cs2 h2
        injection h with h
        rw [← h]
        intro r hr
        rcases List.mem_append.mp hr with hr | hr
        · exact ⟨a, b, _, cs1, h1, hr⟩
        · exact ih _ _ h2 r hr

/-- The best rules are bred rules. -/
def BestBred {Z : Type} (breed : R → R → Z → Except PyErr (List R)) (valid : R → Bool) (s : NsState R K) : Prop :=
  ∀ r ∈ s.best, ∃ o, s.store[r]? = some o ∧ Bred breed valid o.rule

theorem nsStep_spec {Z : Type} (V : NsView R K) (cfg : NsCfg K) (breed : R → R → Z → Except PyErr (List R)) (valid : R → Bool) (s s' : NsState R K)
    (d : NsDraw R Z) (he : nsStep V cfg breed valid s d = .ok s') : (BestBred breed valid s → BestBred breed valid s') ∧
      ∃ new, s'.archive = s.archive ++ new ∧ (cfg.usePopulation = false → new.length ≤ cfg.roh ∧
        ∀ r ∈ new, ∃ o, s'.store[r]? = some o ∧ Bred breed valid o.rule) := by
  unfold nsStep at he
  split at he
  · cases he
  · split at he
    · injection he with he; rw [← he]; exact ⟨id, [], by simp, fun _ => ⟨Nat.zero_le _, by simp⟩⟩
    · split at he
      · cases he
      · rename_i children hch
        dsimp only at he
        split at he
        · injection he with he; rw [← he]; exact ⟨id, [], by simp, fun _ => ⟨Nat.zero_le _, by simp⟩⟩
        · split at he
          · cases he
          · rename_i s2 best h2
            split at he
            · cases he
            · rename_i s3 bp h3
              injection he with he
              rw [← he]
              obtain ⟨x2, m2, _, new2, a2, n2, l2⟩ := ruleSelection_spec V cfg _ _ s2 _ best _ _ h2
              obtain ⟨x3, _, _, new3, a3, _, l3⟩ := ruleSelection_spec V cfg _ s2 s3 _ bp _ _ h3
              have hkey : ∀ r ∈ (List.range (List.filter valid children).length).map (s.store.length + ·), ∃ o, s3.store[r]? = some o ∧ Bred breed valid o.rule := by
                intro r hr
                obtain ⟨i, hi, rfl⟩ := List.mem_map.mp hr
                have hi' := List.mem_range.mp hi
                obtain ⟨o2, ho2, e2⟩ := x2 (s.store.length + i) { rule := (List.filter valid children)[i] } (by
                  rw [List.getElem?_append_right (Nat.le_add_right _ _), Nat.add_sub_cancel_left, List.getElem?_map, List.getElem?_eq_getElem hi']
                  rfl)
                obtain ⟨o3, ho3, e3⟩ := x3 _ o2 ho2
                refine ⟨o3, ho3, ?_⟩
                rw [e3, e2]
                have hmem := List.mem_filter.mp (List.getElem_mem hi')
                exact ⟨hmem.2, nsChildren_mem breed d.breed 0 _ children hch _ hmem.1⟩
              refine ⟨fun _ r hr => hkey r (m2 r hr), new2 ++ new3, ?_, fun hu => ⟨?_, ?_⟩⟩
              · change s3.archive = _
                rw [a3, a2, List.append_assoc]
              · have h0 : new3 = [] := List.eq_nil_of_length_eq_zero (Nat.le_zero.mp (l3 hu))
                rw [h0, List.append_nil]
                exact l2 hu
              · have h0 : new3 = [] := List.eq_nil_of_length_eq_zero (Nat.le_zero.mp (l3 hu))
                rw [h0, List.append_nil]
                exact fun r hr => hkey r (n2 r hr)

theorem foldlM_inv {σ β : Type} (f : σ → β → Except PyErr σ) (I : σ → Prop) (hf : ∀ s b s', I s → f s b = .ok s' → I s') (l : List β) (s s' : σ) (h0 : I s)
    (h : l.foldlM f s = .ok s') : I s' := by
  induction l generalizing s with
  | nil => injection h with h; rw [← h]; exact h0
  | cons b rest ih =>
    rw [List.foldlM_cons] at h
    cases h1 : f s b with
    | error e => rw [h1] at h; cases h
    | ok s1 => rw [h1] at h; exact ih s1 (hf s b s1 h0 h1) h

/-- C78: novelty search (any variant, search type, archive, draws) returns at most `n_rules` rules, all accepted, bred from two rules and valid. -/
theorem C78_returned {Z : Type} (V : NsView R K) (cfg : NsCfg K) (breed : R → R → Z → Except PyErr (List R)) (valid : R → Bool)
    (accept : R → Except PyErr Bool) (nRules : Nat) (pool : Store R K) (initial : List R) (draws : List (NsDraw R Z)) (rules : List R)
    (h : nsOptimize V cfg breed valid accept nRules pool initial draws = .ok rules) :
    rules.length ≤ nRules ∧ ∀ r ∈ rules, accept r = .ok true ∧ Bred breed valid r := by
  unfold nsOptimize at h
  split at h
  · cases h
  · rename_i s hs
    have hb : BestBred breed valid s := foldlM_inv (nsStep V cfg breed valid) (BestBred breed valid)
      (fun s d s' hI hst => (nsStep_spec V cfg breed valid s s' d hst).1 hI) draws _ s (fun r hr => (List.not_mem_nil hr).elim) hs
    refine ⟨(filterInvalid_length accept _ rules h).trans ?_, fun r hr => ?_⟩
    · rw [List.length_map]; exact List.length_take_le _ _
    · obtain ⟨h1, h2⟩ := filterInvalid_mem accept _ rules h r hr
      refine ⟨h2, ?_⟩
      obtain ⟨i, hi, hi2⟩ := List.mem_map.mp h1
      obtain ⟨o, ho, hbr⟩ := hb i (List.mem_of_mem_take hi)
      rw [ho] at hi2
      injection hi2 with hi2
      rw [← hi2]
      exact hbr

/-- C78: the archive starts with the pool, is only ever extended, and unless the whole population is archived, each iteration adds at most `roh` rules, all of them
valid children. `s0` is any state, so this holds for every iteration of a run. -/
theorem C78_archive {Z : Type} (V : NsView R K) (cfg : NsCfg K) (breed : R → R → Z → Except PyErr (List R)) (valid : R → Bool) (draws : List (NsDraw R Z))
    (s0 s : NsState R K) (h : draws.foldlM (nsStep V cfg breed valid) s0 = .ok s) :
    s0.archive <+: s.archive ∧ (cfg.usePopulation = false → s.archive.length ≤ s0.archive.length + draws.length * cfg.roh) := by
  induction draws generalizing s0 with
  | nil => injection h with h; rw [← h]; exact ⟨List.prefix_refl _, fun _ => by simp⟩
  | cons d rest ih =>
    rw [List.foldlM_cons] at h
    cases h1 : nsStep V cfg breed valid s0 d with
    | error e => rw [h1] at h; cases h
    | ok s1 =>
      rw [h1] at h
      obtain ⟨_, new, ha, hn⟩ := nsStep_spec V cfg breed valid s0 s1 d h1
      obtain ⟨hp, hl⟩ := ih s1 h
      refine ⟨(ha ▸ List.prefix_append _ _ : s0.archive <+: s1.archive).trans hp, fun hu => ?_⟩
      have h3 := hl hu
      rw [ha, List.length_append] at h3
      have h4 := (hn hu).1
      rw [List.length_cons, Nat.succ_mul]
      omega

/-- C78: what one iteration adds are valid children of that iteration. -/
theorem C78_children {Z : Type} (V : NsView R K) (cfg : NsCfg K) (hu : cfg.usePopulation = false) (breed : R → R → Z → Except PyErr (List R)) (valid : R → Bool)
    (s s' : NsState R K) (d : NsDraw R Z) (h : nsStep V cfg breed valid s d = .ok s') :
    ∃ new, s'.archive = s.archive ++ new ∧ ∀ r ∈ new, ∃ o, s'.store[r]? = some o ∧ Bred breed valid o.rule := by
  obtain ⟨_, new, ha, hn⟩ := nsStep_spec V cfg breed valid s s' d h
  exact ⟨new, ha, (hn hu).2⟩

theorem nsStep_ext {Z : Type} (V : NsView R K) (cfg : NsCfg K) (breed : R → R → Z → Except PyErr (List R)) (valid : R → Bool) (s s' : NsState R K)
    (d : NsDraw R Z) (he : nsStep V cfg breed valid s d = .ok s') : Ext s.store s'.store := by
  unfold nsStep at he
  split at he
  · cases he
  · split at he
    · injection he with he; rw [← he]; exact Ext.refl _
    · split at he
      · cases he
      · dsimp only at he
        split at he
        · injection he with he; rw [← he]; exact Ext.refl _
        · split at he
          · cases he
          · rename_i s2 best h2
            split at he
            · cases he
            · rename_i s3 bp h3
              injection he with he
              rw [← he]
              obtain ⟨x2, _⟩ := ruleSelection_spec V cfg _ _ s2 _ best _ _ h2
              obtain ⟨x3, _⟩ := ruleSelection_spec V cfg _ s2 s3 _ bp _ _ h3
              refine Ext.trans (fun r o ho => ⟨o, ?_, rfl⟩) (x2.trans x3)
              exact (List.getElem?_append_left (List.getElem?_eq_some_iff.mp ho).1).trans ho

/-- C78 for a whole run, the archive at the end: first all rules of the pool in their order, then (unless the whole population is archived) at most `roh` valid children for each iteration. -/
theorem C78_run {Z : Type} (V : NsView R K) (cfg : NsCfg K) (breed : R → R → Z → Except PyErr (List R)) (valid : R → Bool) (draws : List (NsDraw R Z))
    (pool : Store R K) (initial : List R) (s : NsState R K) (h : draws.foldlM (nsStep V cfg breed valid) (nsStart pool initial) = .ok s) :
    ∃ old new, s.archive = old ++ new ∧ old.map (fun r => s.store[r]?.map NsObj.rule) = pool.map (fun o => some o.rule) ∧
      (cfg.usePopulation = false → new.length ≤ draws.length * cfg.roh ∧ ∀ r ∈ new, ∃ o, s.store[r]? = some o ∧ Bred breed valid o.rule) := by
  have key := foldlM_inv (nsStep V cfg breed valid)
    (fun s => Ext (nsStart pool initial).store s.store ∧ ∃ new, s.archive = List.range pool.length ++ new ∧
      (cfg.usePopulation = false → ∀ r ∈ new, ∃ o, s.store[r]? = some o ∧ Bred breed valid o.rule))
    (fun s d s' hI hst => by
      obtain ⟨hx, new, ha, hn⟩ := hI
      have he := nsStep_ext V cfg breed valid s s' d hst
      obtain ⟨_, new', ha', hn'⟩ := nsStep_spec V cfg breed valid s s' d hst
      refine ⟨hx.trans he, new ++ new', by rw [ha', ha, List.append_assoc], fun hu r hr => ?_⟩
      rcases List.mem_append.mp hr with hr | hr
      · obtain ⟨o, ho, hb⟩ := hn hu r hr
        obtain ⟨o', ho', e⟩ := he r o ho
        exact ⟨o', ho', e ▸ hb⟩
      · exact (hn' hu).2 r hr) draws _ s ⟨Ext.refl _, [], by simp [nsStart], fun _ => by simp⟩ h
  obtain ⟨hx, new, ha, hn⟩ := key
  refine ⟨List.range pool.length, new, ha, ?_, fun hu => ⟨?_, hn hu⟩⟩
  · refine List.ext_getElem? fun i => ?_
    rw [List.getElem?_map, List.getElem?_map]
    by_cases hi : i < pool.length
    · rw [List.getElem?_range hi, List.getElem?_eq_getElem hi]
      obtain ⟨o, ho, e⟩ := hx i pool[i] ((List.getElem?_append_left hi).trans (List.getElem?_eq_getElem hi))
      show some (s.store[i]?.map NsObj.rule) = some (some pool[i].rule)
      rw [ho, ← e]
      rfl
    · rw [List.getElem?_eq_none (by simpa using hi), List.getElem?_eq_none (by simpa using hi)]
      rfl
  · have h1 := (C78_archive V cfg breed valid draws _ s h).2 hu
    rw [ha, List.length_append] at h1
    have h2 : (nsStart pool initial).archive.length = (List.range pool.length).length := rfl
    omega

/-- Two iterations from the archive `[0]`: one reference per iteration is added. -/
example : (([⟨selectAtRandom fun _ => [0, 1, 1, 0], fun _ => (), .novel, .novel⟩, ⟨selectAtRandom fun _ => [0, 1], fun _ => (), .novel, .novel⟩] : List (NsDraw DemoRule Unit)).foldlM
    (nsStep demoView ⟨2, 1, 1, false, .basic, .plain, 15⟩ (fun a b _ => .ok [(a.1.map not, a.2), (b.1.map not, b.2)]) fun r => r.1.any id)
    ⟨[{ rule := ([true, false], 3, 1), distances := some [] }, { rule := ([false, true], 2, 2) }, { rule := ([false, true], 1, 1) }], [0], [1, 2], [], []⟩).toOption.map
    (fun s => s.archive.length) = some 3 := by decide +kernel

section Concrete

open Spec

variable {d : Nat} {M : Type}

theorem breedRules_trained (L : Learner K d M) (ff : RuleFitness K d) (X : List (Point K d)) (y : List K) (hxy : y.length = X.length) (m : Mutation) (r rate : K)
    (fb : Pairs K d) (A B : Rule K d M) (z : BreedDraw K d) (cs : List (Rule K d M)) (h : breedRules L ff X y m r rate fb A B z = .ok cs) :
    ∀ ρ ∈ cs, ρ.TrainedOn L X y ∧ ∃ e z, childRule L ff X y m r fb e z = .ok ρ := by
  have key : ∀ (e : Rule K d M) z ρ, childRule L ff X y m r fb e z = .ok ρ → ρ.TrainedOn L X y := by
    intro e z ρ hc
    unfold childRule at hc
    cases hb : childBounds m e.kind r fb z e.bounds with
    | error er => rw [hb] at hc; cases hc
    | ok b => rw [hb] at hc; exact trainedOn_of_fit L ff X y hxy _ _ rfl hc
  unfold breedRules at h
  split at h
  · cases h
  · split at h
    · cases h
    · rename_i c1 h1
      split at h
      · cases h
      · rename_i c2 h2
        injection h with h
        rw [← h]
        intro ρ hρ
        rcases List.mem_cons.mp hρ with rfl | hρ
        · exact ⟨key _ _ _ h1, _, _, h1⟩
        · rw [List.mem_singleton.mp hρ]
          exact ⟨key _ _ _ h2, _, _, h2⟩

theorem matchesData_of_valid (L : Learner K d M) (ff : RuleFitness K d) (X : List (Point K d)) (y : List K) (hxy : y.length = X.length) (m : Mutation) (r : K)
    (fb : Pairs K d) (e c : Rule K d M) (z : Pairs K d) (hc : childRule L ff X y m r fb e z = .ok c) (hv : validRule c = true) : c.MatchesData X := by
  obtain ⟨⟨s, hs, _, hexp, hfit, _⟩, _⟩ := childRule_consistent L ff X y hxy m r fb e c z hc
  unfold validRule at hv
  rw [hs] at hv
  simp only [Bool.and_eq_true, decide_eq_true_eq] at hv
  exact ⟨s, hs, hv.1, hv.2, hexp, hfit.mp hv.1⟩

/-- C30 and C33 for novelty search: whatever the configuration and the draws, every rule it returns was trained on the data, accepted, and matches at least one
sample; at most `n_rules` are returned. -/
theorem C30_ns_rules (L : Learner K d M) (ff : RuleFitness K d) (X : List (Point K d)) (y : List K) (hxy : y.length = X.length) (m : Mutation) (r rate : K)
    (fb : Pairs K d) (cfg : NsCfg K) (accept : Rule K d M → Except PyErr Bool) (nRules : Nat) (pool : Store (Rule K d M) K) (initial : List (Rule K d M))
    (draws : List (NsDraw (Rule K d M) (BreedDraw K d))) (rules : List (Rule K d M))
    (h : nsOptimize ruleView cfg (breedRules L ff X y m r rate fb) validRule accept nRules pool initial draws = .ok rules) :
    rules.length ≤ nRules ∧ ∀ ρ ∈ rules, ρ.TrainedOn L X y ∧ accept ρ = .ok true ∧ ρ.MatchesData X := by
  obtain ⟨h1, h2⟩ := C78_returned _ cfg _ validRule accept nRules pool initial draws rules h
  refine ⟨h1, fun ρ hρ => ?_⟩
  obtain ⟨hacc, hv, a, b, z, cs, hb, hmem⟩ := h2 ρ hρ
  obtain ⟨ht, e, z', hc⟩ := breedRules_trained L ff X y hxy m r rate fb a b z cs hb ρ hmem
  exact ⟨ht, hacc, matchesData_of_valid L ff X y hxy m r fb e ρ z' hc hv⟩

/-- C30 for random search: every rule it returns is one of the randomly generated rules (fitted on the data), so it was trained on the data; and it was accepted. -/
theorem C30_rs_rules {S : Type} (L : Learner K d M) (ff : RuleFitness K d) (X : List (Point K d)) (y : List K) (hxy : y.length = X.length)
    (select : List (Rule K d M) → S → Except PyErr (List (Rule K d M))) (hsel : ∀ l s out, select l s = .ok out → (∀ ρ ∈ out, ρ ∈ l) ∧ out.length ≤ 1)
    (accept : Rule K d M → Except PyErr Bool) (fresh : List (List (Rule K d M))) (hfresh : ∀ g ∈ fresh, ∀ ρ ∈ g, ρ.st = none) (draws : List S)
    (fitted : List (List (Rule K d M))) (hfit : fresh.mapM (fun g => g.mapM (Rule.fit L ff X y)) = .ok fitted) (rules : List (Rule K d M))
    (h : randomSearch select accept (fitted.zip draws) = .ok rules) :
    rules.length ≤ fresh.length ∧ ∀ ρ ∈ rules, ρ.TrainedOn L X y ∧ accept ρ = .ok true := by
  unfold randomSearch at h
  split at h
  · cases h
  · rename_i out hout
    constructor
    · refine (filterInvalid_length accept _ rules h).trans ?_
      rw [List.length_map]
      have h1 : out.length ≤ fresh.length := by
        rw [mapM_length _ _ _ hout, List.length_zip, mapM_length _ _ _ hfit]
        exact Nat.min_le_left _ _
      have h2 : ∀ o ∈ out, o.length ≤ 1 := fun o ho => by
        obtain ⟨g, _, hg⟩ := mem_of_mapM_ok _ _ _ hout o ho
        exact (hsel _ _ _ hg).2
      rw [List.length_flatten]
      refine le_trans (List.sum_le_card_nsmul _ 1 fun n hn => ?_) (by simpa using h1)
      obtain ⟨o, ho, rfl⟩ := List.mem_map.mp hn
      exact h2 o ho
    · intro ρ hρ
      obtain ⟨h1, h2⟩ := filterInvalid_mem accept _ rules h ρ hρ
      refine ⟨?_, h2⟩
      obtain ⟨ρ', h3, h4⟩ := List.mem_map.mp h1
      injection h4 with h4
      subst h4
      obtain ⟨o, ho, hρo⟩ := List.mem_flatten.mp h3
      obtain ⟨g, hg, hs⟩ := mem_of_mapM_ok _ _ _ hout o ho
      have h5 := (hsel _ _ _ hs).1 _ hρo
      obtain ⟨f, hf, hff⟩ := mem_of_mapM_ok _ _ _ hfit g.1 (List.of_mem_zip hg).1
      obtain ⟨e, he, hee⟩ := mem_of_mapM_ok _ _ _ hff _ h5
      exact trainedOn_of_fit L ff X y hxy _ _ (hfresh f hf e he) hee

/-- Data of the example: three samples. -/
def nsX : List (Point ℚ 1) := [![0], ![1], ![2]]

/-- One iteration on the pair of fitted rules `[0,0]` and `[1,2]`: the first child becomes `[0,1]`, the second one is moved away from all samples. -/
def nsRun (draws : List (NsDraw (Rule ℚ 1 ℚ) (BreedDraw ℚ 1))) : Except PyErr (List ((ℚ × ℚ) × Option Nat)) := do
  let a ← (intervalRule 0 0).fit meanLearner negErr nsX [0, 2, 4]
  let b ← (intervalRule 1 2).fit meanLearner negErr nsX [0, 2, 4]
  let out ← nsOptimize ruleView ⟨2, 1, 1, false, .basic, .plain, 1⟩ (breedRules meanLearner negErr nsX [0, 2, 4] .normal 0 (1/2) ![(0, 9)]) validRule
    (fun _ => .ok true) 2 [] [a, b] draws
  pure (out.map fun ρ => (ρ.bounds 0, ρ.st.map RuleState.experience))

example : nsRun [⟨selectAtRandom fun _ => [0, 1], fun _ => ⟨1, fun _ => true, ![(0, 1)], ![(5, 5)]⟩, .novel, .novel⟩] = .ok [((0, 1), some 2)] := by decide +kernel

/-- With crossover (the draw 0 is below the rate 1/2) the rules swap their first intervals. -/
example : nsRun [⟨selectAtRandom fun _ => [0, 1], fun _ => ⟨0, fun _ => true, ![(0, 0)], ![(0, 0)]⟩, .novel, .novel⟩] = .ok [((1, 2), some 2), ((0, 0), some 1)] := by decide +kernel

/-- The archive of such a run if the pool has the rule `[0,2]`. -/
def nsArchiveRun (draws : List (NsDraw (Rule ℚ 1 ℚ) (BreedDraw ℚ 1))) : Except PyErr (List (Option (ℚ × ℚ))) := do
  let a ← (intervalRule 0 0).fit meanLearner negErr nsX [0, 2, 4]
  let b ← (intervalRule 1 2).fit meanLearner negErr nsX [0, 2, 4]
  let c ← (intervalRule 0 2).fit meanLearner negErr nsX [0, 2, 4]
  let s ← draws.foldlM (nsStep ruleView ⟨2, 1, 1, false, .basic, .plain, 1⟩ (breedRules meanLearner negErr nsX [0, 2, 4] .normal 0 (1/2) ![(0, 9)]) validRule)
    (nsStart [{ rule := c, distances := some [], idx := none }] [a, b])
  pure (s.archive.map fun r => s.store[r]?.map fun o => o.rule.bounds 0)

/-- The pool comes first; of the two children one joins the archive (`roh` is 1). -/
example : nsArchiveRun [⟨selectAtRandom fun _ => [0, 1], fun _ => ⟨0, fun _ => true, ![(0, 0)], ![(0, 0)]⟩, .novel, .novel⟩] = .ok [some (0, 2), some (1, 2)] := by decide +kernel

/-! ### C104 -/

/-- The child of an ordered rule inside the feature bounds by an increasing mutation contains its interval in every dimension. -/
theorem childRule_grows (L : Learner K d M) (ff : RuleFitness K d) (X : List (Point K d)) (y : List K) (hxy : y.length = X.length) (m : Mutation) (hm : IsIncrease m)
    (sigma : K × K) (r : K) (fb : Pairs K d) (ρ : Rule K d M) (hk : ρ.kind = .ordered) (ho : Ordered ρ.bounds) (hi : Inside fb ρ.bounds) (z : Pairs K d)
    (hz : m.DrawOk .ordered sigma z) :
    ∃ c, childRule L ff X y m r fb ρ z = .ok c ∧ c.kind = .ordered ∧ ∀ i, (c.bounds i).1 ≤ (ρ.bounds i).1 ∧ (ρ.bounds i).2 ≤ (c.bounds i).2 := by
  obtain ⟨b, hb, hlo⟩ := C12_step m hm sigma r fb z ρ.bounds hz (fun i => (ρ.bounds i).1) (fun i => ⟨(hi i).1, (hi i).2.1⟩)
    ((OrderedBound.call_iff _ _).mpr fun i => ⟨le_refl _, ho i⟩)
  obtain ⟨b', hb', hhi⟩ := C12_step m hm sigma r fb z ρ.bounds hz (fun i => (ρ.bounds i).2) (fun i => ⟨(hi i).2.2.1, (hi i).2.2.2⟩)
    ((OrderedBound.call_iff _ _).mpr fun i => ⟨ho i, le_refl _⟩)
  rw [hb] at hb'
  cases hb'
  obtain ⟨c, hc, hs, _⟩ := fit_consistent L ff X X y hxy rfl { ρ.clone with bounds := b } (Or.inl rfl)
  refine ⟨c, ?_, hs.1.trans hk, fun i => ?_⟩
  · unfold childRule
    rw [hk, hb]
    exact hc
  · rw [hs.2.1]
    exact ⟨((OrderedBound.call_iff _ _).mp hlo i).1, ((OrderedBound.call_iff _ _).mp hhi i).2⟩

/-- C104: two interval rules inside the training range have exactly two children by crossover and an increasing mutation, and in every feature one child covers the interval of the first
parent and the other child that of the second parent. -/
theorem C104_cover (L : Learner K d M) (ff : RuleFitness K d) (X : List (Point K d)) (y : List K) (hxy : y.length = X.length) (m : Mutation) (hm : IsIncrease m)
    (sigma : K × K) (r rate : K) (fb : Pairs K d) (A B : Rule K d M) (hkA : A.kind = .ordered) (hkB : B.kind = .ordered) (hoA : Ordered A.bounds) (hoB : Ordered B.bounds)
    (hiA : Inside fb A.bounds) (hiB : Inside fb B.bounds) (z : BreedDraw K d) (hz1 : m.DrawOk .ordered sigma z.first) (hz2 : m.DrawOk .ordered sigma z.second) :
    ∃ c1 c2, breedRules L ff X y m r rate fb A B z = .ok [c1, c2] ∧ c1.kind = .ordered ∧ c2.kind = .ordered ∧ ∀ i,
      (((c1.bounds i).1 ≤ (A.bounds i).1 ∧ (A.bounds i).2 ≤ (c1.bounds i).2) ∧ ((c2.bounds i).1 ≤ (B.bounds i).1 ∧ (B.bounds i).2 ≤ (c2.bounds i).2)) ∨
      (((c2.bounds i).1 ≤ (A.bounds i).1 ∧ (A.bounds i).2 ≤ (c2.bounds i).2) ∧ ((c1.bounds i).1 ≤ (B.bounds i).1 ∧ (B.bounds i).2 ≤ (c1.bounds i).2)) := by
  obtain ⟨a, b, hx, hab⟩ := C13_swap_partial rate z.u z.mask A.bounds B.bounds
  obtain ⟨c1, h1, hk1, hc1⟩ := childRule_grows L ff X y hxy m hm sigma r fb { A with bounds := a } hkA
    (fun i => by rcases hab i with ⟨h, _⟩ | ⟨h, _⟩ <;> dsimp only <;> rw [h]; exacts [hoA i, hoB i])
    (fun i => by rcases hab i with ⟨h, _⟩ | ⟨h, _⟩ <;> dsimp only <;> rw [h]; exacts [hiA i, hiB i]) z.first hz1
  obtain ⟨c2, h2, hk2, hc2⟩ := childRule_grows L ff X y hxy m hm sigma r fb { B with bounds := b } hkB
    (fun i => by rcases hab i with ⟨_, h⟩ | ⟨_, h⟩ <;> dsimp only <;> rw [h]; exacts [hoB i, hoA i])
    (fun i => by rcases hab i with ⟨_, h⟩ | ⟨_, h⟩ <;> dsimp only <;> rw [h]; exacts [hiB i, hiA i]) z.second hz2
  refine ⟨c1, c2, ?_, hk1, hk2, fun i => ?_⟩
  · have hx' : ruleCrossover A.kind rate z.u z.mask A.bounds B.bounds = .ok (a, b) := by rw [hkA]; exact hx
    unfold breedRules
    rw [hx']
    dsimp only
    rw [h1]
    dsimp only
    rw [h2]
  · have e1 := hc1 i
    have e2 := hc2 i
    dsimp only at e1 e2
    rcases hab i with ⟨h, h'⟩ | ⟨h, h'⟩
    · rw [h] at e1; rw [h'] at e2; exact Or.inl ⟨e1, e2⟩
    · rw [h] at e1; rw [h'] at e2; exact Or.inr ⟨e2, e1⟩

/-- C104: a sample matched by both parents is matched by both children; if it is a training sample, both children are trained on it and neither is thrown away. -/
theorem C104_common (L : Learner K d M) (ff : RuleFitness K d) (X : List (Point K d)) (y : List K) (hxy : y.length = X.length) (m : Mutation) (hm : IsIncrease m)
    (sigma : K × K) (r rate : K) (fb : Pairs K d) (A B : Rule K d M) (hkA : A.kind = .ordered) (hkB : B.kind = .ordered) (hoA : Ordered A.bounds) (hoB : Ordered B.bounds)
    (hiA : Inside fb A.bounds) (hiB : Inside fb B.bounds) (z : BreedDraw K d) (hz1 : m.DrawOk .ordered sigma z.first) (hz2 : m.DrawOk .ordered sigma z.second)
    (x : Point K d) (hxA : A.kind.call A.bounds x = true) (hxB : B.kind.call B.bounds x = true) :
    ∃ c1 c2, breedRules L ff X y m r rate fb A B z = .ok [c1, c2] ∧ c1.kind.call c1.bounds x = true ∧ c2.kind.call c2.bounds x = true ∧
      (x ∈ X → c1.MatchesData X ∧ c2.MatchesData X ∧ validRule c1 = true ∧ validRule c2 = true) := by
  obtain ⟨c1, c2, hb, hk1, hk2, hcov⟩ := C104_cover L ff X y hxy m hm sigma r rate fb A B hkA hkB hoA hoB hiA hiB z hz1 hz2
  rw [hkA] at hxA
  rw [hkB] at hxB
  have hA := (OrderedBound.call_iff _ _).mp hxA
  have hB := (OrderedBound.call_iff _ _).mp hxB
  have h1 : c1.kind.call c1.bounds x = true := by
    rw [hk1]
    refine (OrderedBound.call_iff _ _).mpr fun i => ?_
    rcases hcov i with ⟨h, _⟩ | ⟨_, h⟩
    · exact ⟨h.1.trans (hA i).1, (hA i).2.trans h.2⟩
    · exact ⟨h.1.trans (hB i).1, (hB i).2.trans h.2⟩
  have h2 : c2.kind.call c2.bounds x = true := by
    rw [hk2]
    refine (OrderedBound.call_iff _ _).mpr fun i => ?_
    rcases hcov i with ⟨_, h⟩ | ⟨h, _⟩
    · exact ⟨h.1.trans (hB i).1, (hB i).2.trans h.2⟩
    · exact ⟨h.1.trans (hA i).1, (hA i).2.trans h.2⟩
  refine ⟨c1, c2, hb, h1, h2, fun hxX => ?_⟩
  have key : ∀ c ∈ [c1, c2], c.kind.call c.bounds x = true → c.MatchesData X ∧ validRule c = true := by
    intro c hc hcx
    obtain ⟨_, e, z', he⟩ := breedRules_trained L ff X y hxy m r rate fb A B z _ hb c hc
    obtain ⟨⟨s, hs, _, hexp, hfit, _⟩, _⟩ := childRule_consistent L ff X y hxy m r fb e c z' he
    have hf : s.isFitted = true := hfit.mpr ⟨x, hxX, hcx⟩
    have hpos : 0 < s.experience := by
      rw [hexp]
      exact List.length_pos_of_mem (List.mem_filter.mpr ⟨hxX, hcx⟩)
    exact ⟨⟨s, hs, hf, hpos, hexp, x, hxX, hcx⟩, by unfold validRule; rw [hs]; simp [hf, hpos]⟩
  exact ⟨(key c1 (by simp) h1).1, (key c2 (by simp) h2).1, (key c1 (by simp) h1).2, (key c2 (by simp) h2).2⟩

/-- The hypotheses hold for `[0,2]` and `[1,2]`, which both match the sample 1; with crossover the first child is the grown interval of the second parent. -/
example : Ordered (intervalRule 0 2).bounds ∧ Ordered (intervalRule 1 2).bounds ∧ Inside ![(0, 9)] (intervalRule 0 2).bounds ∧ Inside ![(0, 9)] (intervalRule 1 2).bounds ∧
    Mutation.DrawOk .halfnormIncrease .ordered ((1, 1) : ℚ × ℚ) (![(1 / 2, 1)] : Pairs ℚ 1) ∧
    ((breedRules meanLearner negErr nsX [0, 2, 4] .halfnormIncrease 0 (1 / 2) ![(0, 9)] (intervalRule 0 2) (intervalRule 1 2) ⟨0, fun _ => false, ![(1 / 2, 1)], ![(1 / 2, 1)]⟩).toOption.map
      fun cs => cs.map fun c => (c.bounds 0, c.st.map RuleState.experience)) = some [((1 / 2, 3), some 2), ((0, 3), some 3)] := by
  refine ⟨?_, ?_, ?_, ?_, ?_, ?_⟩
  · decide +kernel
  · decide +kernel
  · decide +kernel
  · decide +kernel
  · unfold Mutation.DrawOk; decide +kernel
  · decide +kernel

end Concrete

end Suprb
