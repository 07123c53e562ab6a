import Verif.Props.Solution
import Verif.Model.Novelty
import Verif.Lemmas.ES
import Mathlib.Algebra.Order.BigOperators.Group.List

/-!
# Claims C70 and C77 (novelty search)
-/

set_option autoImplicit false
set_option linter.unusedSectionVars false

namespace Suprb

variable {K : Type} [Field K] [LinearOrder K] [IsStrictOrderedRing K] {R : Type}

/-! ## Scores -/

/-- All distances that are stored lie in [0, 1]. -/
def StoreOK (st : Store R K) : Prop := ∀ o ∈ st, ∀ ds, o.distances = some ds → ∀ x ∈ ds, (0 : K) ≤ x ∧ x ≤ 1

theorem hamming_range (u v : List Bool) (h : K) (he : hamming u v = .ok h) : 0 ≤ h ∧ h ≤ 1 := by
  unfold hamming at he
  split at he
  · cases he
  · rename_i hl
    injection he with he
    rw [← he]
    refine ⟨div_nonneg (Nat.cast_nonneg _) (Nat.cast_nonneg _), div_le_one_of_le₀ ?_ (Nat.cast_nonneg _)⟩
    exact Nat.cast_le.mpr ((List.countP_le_length).trans (by rw [List.length_zip]; exact min_le_left _ _))

theorem StoreOK.set {st : Store R K} (h : StoreOK st) (r : Nat) (o : NsObj R K) (ho : ∀ ds, o.distances = some ds → ∀ x ∈ ds, (0 : K) ≤ x ∧ x ≤ 1) :
    StoreOK (st.set r o) := by
  intro p hp
  rcases List.mem_or_eq_of_mem_set hp with hp | rfl
  · exact h p hp
  · exact ho

theorem StoreOK.append {st : Store R K} (h : StoreOK st) (r : Nat) (x : K) (hx : 0 ≤ x ∧ x ≤ 1) (st' : Store R K) (he : appendDistance st r x = .ok st') :
    StoreOK st' := by
  unfold appendDistance at he
  split at he
  · cases he
  · rename_i o ho
    split at he
    · cases he
    · rename_i ds hds
      injection he with he
      rw [← he]
      refine h.set r _ fun ds' hds' y hy => ?_
      injection hds' with hds'
      rw [← hds'] at hy
      rcases List.mem_append.mp hy with hy | hy
      · exact h o (List.mem_of_getElem? ho) ds hds y hy
      · rw [List.mem_singleton.mp hy]; exact hx

theorem distancesTo_ok (V : NsView R K) (r : Nat) (archive : List Nat) (st st' : Store R K) (h : StoreOK st) (he : distancesTo V r archive st = .ok st') :
    StoreOK st' := by
  induction archive generalizing st with
  | nil => injection he with he; rw [← he]; exact h
  | cons a rest ih =>
    unfold distancesTo at he
    split at he
    · split at he
      · cases he
      · rename_i x hx
        split at he
        · cases he
        · rename_i st1 h1
          split at he
          · cases he
          · rename_i st2 h2
            have hr := hamming_range _ _ _ hx
            exact ih st2 ((h.append a x hr st1 h1).append r x hr st2 h2) he
    · cases he

theorem joinArchive_ok (V : NsView R K) (archive : List Nat) (r : Nat) (st st' : Store R K) (h : StoreOK st) (he : joinArchive V st archive r = .ok st') :
    StoreOK st' := by
  unfold joinArchive at he
  split at he
  · cases he
  · split at he
    · split at he
      · cases he
      · rename_i st1 h1
        split at he
        · cases he
        · rename_i st2 h2
          injection he with he
          rw [← he]
          have hs := distancesTo_ok V r archive _ st1 (h.set r _ fun ds hds x hx => by injection hds with hds; rw [← hds] at hx; cases hx) h1
          have hs2 := hs.append r 0 ⟨le_refl _, zero_le_one⟩ st2 h2
          intro o ho ds hds
          obtain ⟨i, hi, rfl⟩ := List.mem_iff_getElem.mp ho
          rw [List.getElem_modify] at hds
          have hi' : i < st2.length := by rw [List.length_modify] at hi; exact hi
          refine hs2 st2[i] (List.getElem_mem hi') ds ?_
          split at hds
          · exact hds
          · exact hds
    · injection he with he; rw [← he]; exact h

theorem joinAll_ok (V : NsView R K) (rules : List Nat) (st st' : Store R K) (archive archive' : List Nat) (h : StoreOK st)
    (he : joinAll V rules st archive = .ok (st', archive')) : StoreOK st' := by
  induction rules generalizing st archive with
  | nil => injection he with he; injection he with h1 h2; rw [← h1]; exact h
  | cons r rest ih =>
    unfold joinAll at he
    split at he
    · cases he
    · rename_i st1 h1
      exact ih st1 _ (joinArchive_ok V archive r st st1 h h1) he

theorem nearestMean_range (k : Nat) (ds : List K) (h : ∀ x ∈ ds, 0 ≤ x ∧ x ≤ 1) (s : K) (he : nearestMean k ds = .ok s) : 0 ≤ s ∧ s ≤ 1 := by
  unfold nearestMean at he
  split at he
  · cases he
  · dsimp only at he
    split at he
    · injection he with he; rw [← he]; exact ⟨le_refl _, zero_le_one⟩
    · rename_i hn
      injection he with he
      rw [← he]
      have hmem : ∀ x ∈ (sortedAsc id ds).take (min k (ds.length - 1)), 0 ≤ x ∧ x ≤ 1 := fun x hx =>
        h x ((List.perm_insertionSort _ ds).subset (List.mem_of_mem_take hx))
      refine ⟨div_nonneg (List.sum_nonneg fun x hx => (hmem x hx).1) (Nat.cast_nonneg _), div_le_one_of_le₀ ?_ (Nat.cast_nonneg _)⟩
      have := List.sum_le_card_nsmul _ (1 : K) fun x hx => (hmem x hx).2
      rw [nsmul_eq_mul, mul_one] at this
      exact this.trans (Nat.cast_le.mpr (List.length_take_le _ _))

/-- The score of the object `r` is a number between 0 and 1. -/
def ScoreIn (st : Store R K) (r : Nat) : Prop := ∃ x : K, noveltyOf st r = (x : WithBot K) ∧ 0 ≤ x ∧ x ≤ 1

/-- The variants and search types whose score is the mean distance. -/
def NsVariant.Unbiased : NsVariant K → Prop
  | .biased _ _ => False
  | _ => True

def NsType.NoCompetition : NsType → Prop
  | .localCompetition _ => False
  | _ => True

theorem scoreAll_ok (V : NsView R K) (v : NsVariant K) (t : NsType) (hv : v.Unbiased) (ht : t.NoCompetition) (k : Nat) (archive rules : List Nat)
    (st st' : Store R K) (h : StoreOK st) (he : scoreAll V v t k archive rules st = .ok st') :
    StoreOK st' ∧ ∀ r, (r ∈ rules ∨ ScoreIn st r) → ScoreIn st' r := by
  induction rules generalizing st with
  | nil =>
    injection he with he
    rw [← he]
    refine ⟨h, fun r hr => ?_⟩
    rcases hr with hr | hr
    · cases hr
    · exact hr
  | cons a rest ih =>
    unfold scoreAll at he
    split at he
    · cases he
    · rename_i o ho
      split at he
      · cases he
      · rename_i lc hlc
        split at he
        · cases he
        · rename_i s hs
          have hlc0 : lc = 0 := by
            unfold localCompetition at hlc
            cases t with
            | localCompetition _ => exact absurd ht id
            | plain => injection hlc with hlc; exact hlc.symm
            | minimalCriteria _ => injection hlc with hlc; exact hlc.symm
          have hsc : ∃ x : K, s = (x : WithBot K) ∧ 0 ≤ x ∧ x ≤ 1 := by
            unfold noveltyBase at hs
            split at hs
            · cases hs
            · rename_i ds hds
              split at hs
              · cases hs
              · rename_i x hx
                have hr := nearestMean_range k ds (h o (List.mem_of_getElem? ho) ds hds) x hx
                cases v with
                | biased _ _ => exact absurd hv id
                | basic => injection hs with hs; exact ⟨x, hs.symm, hr⟩
                | progressive => injection hs with hs; exact ⟨x, hs.symm, hr⟩
                | pareto => injection hs with hs; exact ⟨x, hs.symm, hr⟩
          obtain ⟨x, rfl, hx⟩ := hsc
          have hlt := (List.getElem?_eq_some_iff.mp ho).1
          have hset : StoreOK (st.set a { o with novelty := some (WithBot.map (fun x => lc + x) (x : WithBot K)) }) :=
            h.set a _ fun ds hds => h o (List.mem_of_getElem? ho) ds hds
          obtain ⟨h1, h2⟩ := ih _ hset he
          have ha : ScoreIn (st.set a { o with novelty := some (WithBot.map (fun x => lc + x) (x : WithBot K)) }) a := by
            refine ⟨x, ?_, hx⟩
            unfold noveltyOf
            rw [List.getElem?_set, if_pos rfl, if_pos hlt, hlc0]
            simp
          refine ⟨h1, fun r hr => h2 r ?_⟩
          by_cases hra : r = a
          · right; rw [hra]; exact ha
          · rcases hr with hr | hr
            · exact .inl ((List.mem_cons.mp hr).resolve_left hra)
            · right
              obtain ⟨y, hy, hy'⟩ := hr
              refine ⟨y, ?_, hy'⟩
              unfold noveltyOf
              rw [List.getElem?_set, if_neg (Ne.symm hra)]
              exact hy

theorem paretoLoop_sub {α F : Type} [LE F] [DecidableLE F] (fitness : α → F) (last : F) (l : List α) : (paretoLoop fitness last l).Sublist l := by
  induction l generalizing last with
  | nil => exact .slnil
  | cons r rest ih =>
    unfold paretoLoop
    split
    · exact (ih _).cons_cons _
    · exact (ih _).cons _

theorem paretoFront_mem {α F G : Type} [LinearOrder F] [LinearOrder G] (novelty : α → F) (fitness : α → G) (rules front : List α)
    (h : paretoFront novelty fitness rules = .ok front) : ∀ r ∈ front, r ∈ rules := by
  unfold paretoFront at h
  split at h
  · cases h
  · rename_i r rest hs
    injection h with h
    have hp := sortedDesc_perm (fun r => toLex (novelty r, fitness r)) rules
    rw [hs] at hp
    intro x hx
    rw [← h] at hx
    exact hp.subset (((paretoLoop_sub fitness _ rest).cons_cons r).subset hx)

theorem noveltyScores_ok (V : NsView R K) (v : NsVariant K) (t : NsType) (hv : v.Unbiased) (ht : t.NoCompetition) (k : Nat) (archive rules ns : List Nat)
    (st st' : Store R K) (h : StoreOK st) (he : noveltyScores V v t k archive rules st = .ok (st', ns)) : StoreOK st' ∧ ∀ r ∈ ns, ScoreIn st' r := by
  unfold noveltyScores at he
  dsimp only at he
  split at he
  · cases he
  · rename_i filtered _
    split at he
    · cases he
    · rename_i st1 archive1 h1
      split at he
      · cases he
      · rename_i st2 h2
        have hsc := scoreAll_ok V v t hv ht k archive1 filtered st1 st2 (joinAll_ok V filtered st st1 archive archive1 h h1) h2
        split at he
        · split at he
          · cases he
          · rename_i front hf
            injection he with he
            injection he with e1 e2
            rw [← e1, ← e2]
            exact ⟨hsc.1, fun r hr => hsc.2 r (.inl (paretoFront_mem _ _ _ _ hf r hr))⟩
        · injection he with he
          injection he with e1 e2
          rw [← e1, ← e2]
          exact ⟨hsc.1, fun r hr => hsc.2 r (.inl hr)⟩

/-- All scores computed so far are numbers in [0, 1], and so are the stored distances. -/
def NsState.OK (s : NsState R K) : Prop := StoreOK s.store ∧ ∀ w ∈ s.log, ∃ x : K, w = (x : WithBot K) ∧ 0 ≤ x ∧ x ≤ 1

theorem ruleSelection_ok (V : NsView R K) (cfg : NsCfg K) (hv : cfg.variant.Unbiased) (ht : cfg.type.NoCompetition) (a : NsArchive) (s s' : NsState R K)
    (rules best : List Nat) (n roh : Nat) (h : s.OK) (he : ruleSelection V cfg a s rules n roh = .ok (s', best)) : s'.OK := by
  unfold ruleSelection at he
  split at he
  · cases he
  · rename_i st ns hns
    injection he with he
    injection he with e1 e2
    rw [← e1]
    obtain ⟨h1, h2⟩ := noveltyScores_ok V _ _ hv ht _ _ _ _ _ _ h.1 hns
    refine ⟨h1, fun w hw => ?_⟩
    rcases List.mem_append.mp hw with hw | hw
    · exact h.2 w hw
    · obtain ⟨r, hr, rfl⟩ := List.mem_map.mp hw
      exact h2 r hr

theorem nsStep_ok {Z : Type} (V : NsView R K) (cfg : NsCfg K) (hv : cfg.variant.Unbiased) (ht : cfg.type.NoCompetition)
    (breed : R → R → Z → Except PyErr (List R)) (valid : R → Bool) (s s' : NsState R K) (d : NsDraw R Z) (h : s.OK)
    (he : nsStep V cfg breed valid s d = .ok s') : s'.OK := by
  unfold nsStep at he
  split at he
  · cases he
  · split at he
    · injection he with he; rw [← he]; exact h
    · split at he
      · cases he
      · rename_i children _
        dsimp only at he
        split at he
        · injection he with he; rw [← he]; exact h
        · split at he
          · cases he
          · rename_i s2 best h2
            split at he
            · cases he
            · rename_i s3 bp h3
              injection he with he
              rw [← he]
              have h0 : NsState.OK { s with store := s.store ++ List.map (fun r => ({ rule := r } : NsObj R K)) (List.filter valid children) } := ⟨?_, h.2⟩
              · have h1 := ruleSelection_ok V cfg hv ht _ _ s2 _ best _ _ h0 h2
                exact ruleSelection_ok V cfg hv ht _ s2 s3 _ bp _ _ h1 h3
              intro o ho
              rcases List.mem_append.mp ho with ho | ho
              · exact h.1 o ho
              · obtain ⟨r, _, rfl⟩ := List.mem_map.mp ho
                intro ds hds
                cases hds

/-- C70, first part: in a run of novelty search with any archive, basic, progressive or Pareto novelty, and any search type but local competition, every novelty
score that is computed (of children and parents, in every iteration) lies in [0, 1]. -/
theorem C70_scores_partial {Z : Type} (V : NsView R K) (cfg : NsCfg K) (hv : cfg.variant.Unbiased) (ht : cfg.type.NoCompetition)
    (breed : R → R → Z → Except PyErr (List R)) (valid : R → Bool) (draws : List (NsDraw R Z)) (s s' : NsState R K) (hst : StoreOK s.store) (hlog : s.log = [])
    (he : draws.foldlM (nsStep V cfg breed valid) s = .ok s') : ∀ w ∈ s'.log, ∃ x : K, w = (x : WithBot K) ∧ 0 ≤ x ∧ x ≤ 1 := by
  have : ∀ (draws : List (NsDraw R Z)) (s : NsState R K), s.OK → draws.foldlM (nsStep V cfg breed valid) s = .ok s' → s'.OK := by
    intro draws
    induction draws with
    | nil => intro s h he; injection he with he; rw [← he]; exact h
    | cons d rest ih =>
      intro s h he
      rw [List.foldlM_cons] at he
      cases h1 : nsStep V cfg breed valid s d with
      | error e => rw [h1] at he; cases he
      | ok s1 => rw [h1] at he; exact ih s1 (nsStep_ok V cfg hv ht breed valid s s1 d h h1) he
  exact (this draws s ⟨hst, by rw [hlog]; simp⟩ he).2

/-- The biased score of a rule: a weighted sum of two numbers in [0, 1], if the fitness lies in [0, 100] and the weights add up to at most 1. -/
theorem C70_biased_partial (V : NsView R K) (nb fb : K) (hn : 0 ≤ nb) (hf : 0 ≤ fb) (hsum : nb + fb ≤ 1) (k : Nat) (o : NsObj R K) (f : K)
    (hfit : V.fitness o.rule = (f : WithBot K)) (h0 : 0 ≤ f) (h100 : f ≤ 100) (hd : ∀ ds, o.distances = some ds → ∀ x ∈ ds, (0 : K) ≤ x ∧ x ≤ 1)
    (s : WithBot K) (hs : noveltyBase V (.biased nb fb) k o = .ok s) : ∃ x : K, s = (x : WithBot K) ∧ 0 ≤ x ∧ x ≤ 1 := by
  unfold noveltyBase at hs
  split at hs
  · cases hs
  · rename_i ds hds
    split at hs
    · cases hs
    · rename_i x hx
      obtain ⟨hx0, hx1⟩ := nearestMean_range k ds (hd ds hds) x hx
      injection hs with hs
      rw [hfit, WithBot.map_coe] at hs
      have hq0 : 0 ≤ f / 100 := div_nonneg h0 (by norm_num)
      have hq1 : f / 100 ≤ 1 := (div_le_one (by norm_num)).mpr h100
      refine ⟨_, hs.symm, add_nonneg (mul_nonneg hn hx0) (mul_nonneg hf hq0), ?_⟩
      calc nb * x + fb * (f / 100) ≤ nb * 1 + fb * 1 := add_le_add (mul_le_mul_of_nonneg_left hx1 hn) (mul_le_mul_of_nonneg_left hq1 hf)
        _ ≤ 1 := by rw [mul_one, mul_one]; exact hsum

/-- Rules for examples: match set, fitness, experience; `q` is the embedding of the numbers. -/
abbrev DemoRule := List Bool × WithBot ℚ × Nat
def demoView : NsView DemoRule ℚ := ⟨fun r => r.1, fun r => r.2.1, fun r => r.2.2⟩
def q (x : ℚ) : WithBot ℚ := x
def demoStore : Store DemoRule ℚ := [{ rule := ([true, false], 3, 1) }, { rule := ([true, true], 2, 2) }, { rule := ([false, true], 1, 1) }]

/-- The scores computed for the three rules. -/
def demoScores (v : NsVariant ℚ) (t : NsType) : Option (List (WithBot ℚ)) :=
  (noveltyScores demoView v t 15 [] [0, 1, 2] demoStore).toOption.map fun x => x.2.map (noveltyOf x.1)

/-- C70 is false for local competition: scores up to 2 are possible, here 5/4; and it is the *worse* rule that gets the higher score. -/
theorem C70_refuted : ∃ (st : Store DemoRule ℚ) (ns : List Nat), noveltyScores demoView .basic (.localCompetition 2) 15 [] [0, 1, 2] demoStore = .ok (st, ns) ∧
    ns.map (noveltyOf st) = [q (1 / 4), q (3 / 4), q (5 / 4)] ∧ StoreOK demoStore := by
  have h : demoScores .basic (.localCompetition 2) = some [q (1 / 4), q (3 / 4), q (5 / 4)] := by decide +kernel
  unfold demoScores at h
  cases hx : noveltyScores demoView .basic (.localCompetition 2) 15 [] [0, 1, 2] demoStore with
  | error e => rw [hx] at h; cases h
  | ok x =>
    rw [hx] at h
    injection h with h
    exact ⟨x.1, x.2, rfl, h, by simp [StoreOK, demoStore]⟩

/-- Each rule counts as its own nearest neighbour: two rules that share no sample have novelty 0. -/
example : demoScores .basic .plain = some [q (1 / 4), q (1 / 4), q (1 / 4)] ∧ (noveltyScores demoView .basic .plain 15 [] [0, 2] demoStore).toOption.map
    (fun x => x.2.map (noveltyOf x.1)) = some [0, 0] := by decide +kernel

/-- A run of two iterations with breeding that flips the match sets; the log has the scores of children and parents. -/
example : (([⟨selectAtRandom fun _ => [0, 1, 2, 0], fun _ => (), .novel, .novel⟩, ⟨selectAtRandom fun _ => [0, 1], fun _ => (), .novel, .novel⟩] : List (NsDraw DemoRule Unit)).foldlM
    (nsStep demoView ⟨2, 1, 1, false, .basic, .plain, 15⟩ (fun a b _ => .ok [(a.1.map not, a.2), (b.1.map not, b.2)]) fun r => r.1.any id)
    ⟨demoStore, [], [0, 1, 2], [], []⟩).toOption.map (fun s => (s.archive, s.population, s.log)) =
    some ([4, 6], [6, 7, 4], [0, q (1 / 2), 0, q (1 / 6), q (1 / 3), q (1 / 2), q (1 / 6), q (1 / 2), 0, q (1 / 2), 0]) := by decide +kernel

/-! ## Pareto front -/

/-- `r` is not beaten: no rule is at least as novel and strictly fitter. -/
def NotBeaten {α F G : Type} [LE F] [LT G] (novelty : α → F) (fitness : α → G) (rules : List α) (r : α) : Prop :=
  ∀ s ∈ rules, novelty r ≤ novelty s → ¬ fitness r < fitness s

theorem paretoLoop_eq {α F G : Type} [LinearOrder F] [LinearOrder G] (novelty : α → F) (fitness : α → G) (last : G) (l : List α)
    (hs : l.Pairwise fun a b => toLex (novelty b, fitness b) ≤ toLex (novelty a, fitness a)) :
    paretoLoop fitness last l = l.filter fun r => decide (last ≤ fitness r ∧ ∀ s ∈ l, novelty r ≤ novelty s → fitness s ≤ fitness r) := by
  induction l generalizing last with
  | nil => rfl
  | cons a rest ih =>
    obtain ⟨ha, hrest⟩ := List.pairwise_cons.mp hs
    have hnov : ∀ s ∈ rest, novelty s ≤ novelty a ∧ (novelty a ≤ novelty s → fitness s ≤ fitness a) := by
      intro s hsr
      have := ha s hsr
      rw [Prod.Lex.toLex_le_toLex] at this
      rcases this with h | h
      · exact ⟨le_of_lt h, fun h' => absurd h (not_lt.mpr h')⟩
      · exact ⟨le_of_eq h.1, fun _ => h.2⟩
    unfold paretoLoop
    by_cases hl : last ≤ fitness a
    · rw [if_pos hl, List.filter_cons_of_pos, ih _ hrest]
      · congr 1
        refine List.filter_congr fun r hr => ?_
        rw [decide_eq_decide]
        constructor
        · rintro ⟨h1, h2⟩
          refine ⟨hl.trans h1, fun s hs' hle => ?_⟩
          rcases List.mem_cons.mp hs' with rfl | hs'
          · exact h1
          · exact h2 s hs' hle
        · rintro ⟨h1, h2⟩
          exact ⟨h2 a (List.mem_cons_self ..) (hnov r hr).1, fun s hs' hle => h2 s (List.mem_cons_of_mem _ hs') hle⟩
      · refine decide_eq_true ⟨hl, fun s hs' hle => ?_⟩
        rcases List.mem_cons.mp hs' with rfl | hs'
        · exact le_refl _
        · exact (hnov s hs').2 hle
    · rw [if_neg hl, List.filter_cons_of_neg, ih _ hrest]
      · refine List.filter_congr fun r hr => ?_
        rw [decide_eq_decide]
        constructor
        · rintro ⟨h1, h2⟩
          refine ⟨h1, fun s hs' hle => ?_⟩
          rcases List.mem_cons.mp hs' with rfl | hs'
          · exact (le_of_lt (not_le.mp hl)).trans h1
          · exact h2 s hs' hle
        · rintro ⟨h1, h2⟩
          exact ⟨h1, fun s hs' hle => h2 s (List.mem_cons_of_mem _ hs') hle⟩
      · simp [hl]

/-- C70, second part: the Pareto front consists of exactly the rules that are not beaten, each as often as it occurs. -/
theorem C70_pareto_front {α F G : Type} [LinearOrder F] [LinearOrder G] (novelty : α → F) (fitness : α → G) (rules : List α) (hne : rules ≠ []) :
    ∃ front, paretoFront novelty fitness rules = .ok front ∧ front ≠ [] ∧
      ∃ p : α → Bool, (∀ r, p r = true ↔ NotBeaten novelty fitness rules r) ∧ front.Perm (rules.filter p) := by
  have hp := sortedDesc_perm (fun r => toLex (novelty r, fitness r)) rules
  have hs := sortedDesc_pairwise (fun r => toLex (novelty r, fitness r)) rules
  unfold paretoFront
  cases hsr : sortedDesc (fun r => toLex (novelty r, fitness r)) rules with
  | nil => rw [hsr] at hp; exact absurd hp.symm.eq_nil hne
  | cons a rest =>
    rw [hsr] at hp hs
    refine ⟨_, rfl, by simp, fun r => decide (∀ s ∈ rules, novelty r ≤ novelty s → fitness s ≤ fitness r), fun r => ?_, ?_⟩
    · simp [NotBeaten]
    · have h1 : a :: paretoLoop fitness (fitness a) rest = paretoLoop fitness (fitness a) (a :: rest) := by
        conv_rhs => unfold paretoLoop
        rw [if_pos (le_refl _)]
      rw [h1, paretoLoop_eq novelty fitness _ _ hs]
      have h2 : ((a :: rest).filter fun r => decide (fitness a ≤ fitness r ∧ ∀ s ∈ a :: rest, novelty r ≤ novelty s → fitness s ≤ fitness r)) =
          (a :: rest).filter fun r => decide (∀ s ∈ rules, novelty r ≤ novelty s → fitness s ≤ fitness r) := by
        refine List.filter_congr fun r hr => ?_
        rw [decide_eq_decide]
        constructor
        · rintro ⟨_, h2⟩ s hs' hle
          exact h2 s (hp.symm.subset hs') hle
        · intro h
          refine ⟨?_, fun s hs' hle => h s (hp.subset hs') hle⟩
          refine h a (hp.subset (List.mem_cons_self ..)) ?_
          rcases List.mem_cons.mp hr with rfl | hr
          · exact le_refl _
          · have := (List.pairwise_cons.mp hs).1 r hr
            rw [Prod.Lex.toLex_le_toLex] at this
            rcases this with h | h
            · exact le_of_lt h
            · exact le_of_eq h.1
      rw [h2]
      exact hp.filter _

example : paretoFront (α := ℕ × ℕ) Prod.fst Prod.snd [(3, 1), (2, 5), (1, 4), (3, 2), (1, 5), (0, 9)] = .ok [(3, 2), (2, 5), (1, 5), (0, 9)] := by decide +kernel

/-! ## Progressive minimal criterion -/

/-- If everything from position `m` of the sorted values on satisfies a test, at least `n - m` elements of the list do. -/
theorem count_of_sorted {F : Type} [LinearOrder F] (fs : List F) (m : Nat) (p : F → Bool) (h : ∀ (i : Nat) (x : F), m ≤ i → (sortedAsc id fs)[i]? = some x → p x = true) :
    fs.length - m ≤ fs.countP p := by
  have hp := sortedAsc_perm id fs
  rw [← hp.countP_eq]
  have h1 : ((sortedAsc id fs).drop m).countP p = ((sortedAsc id fs).drop m).length := by
    rw [List.countP_eq_length]
    intro x hx
    obtain ⟨i, hi⟩ := List.mem_iff_getElem?.mp hx
    rw [List.getElem?_drop] at hi
    exact h (m + i) x (Nat.le_add_right _ _) hi
  have h2 : ((sortedAsc id fs).drop m).countP p ≤ (sortedAsc id fs).countP p := (List.drop_sublist _ _).countP_le
  rw [h1, List.length_drop, hp.length_eq] at h2
  exact h2

theorem sorted_get_le {F : Type} [LinearOrder F] (fs : List F) (i j : Nat) (x y : F) (hij : i ≤ j) (hi : (sortedAsc id fs)[i]? = some x)
    (hj : (sortedAsc id fs)[j]? = some y) : x ≤ y := by
  rcases Nat.lt_or_ge i j with hlt | hge
  · have := List.pairwise_iff_getElem.mp (sortedAsc_pairwise id fs)
    obtain ⟨h1, rfl⟩ := List.getElem?_eq_some_iff.mp hi
    obtain ⟨h2, rfl⟩ := List.getElem?_eq_some_iff.mp hj
    exact this i j h1 h2 hlt
  · have : i = j := le_antisymm hij hge
    rw [this, hj] at hi
    injection hi with hi
    exact le_of_eq hi.symm

theorem nsMedian_le (fs : List (WithBot K)) (hne : fs ≠ []) : ∃ m x, nsMedian fs = some m ∧ (sortedAsc id fs)[fs.length / 2]? = some x ∧ m ≤ x := by
  have hl : 0 < fs.length := List.length_pos_iff.mpr hne
  have hlen : (sortedAsc id fs).length = fs.length := (sortedAsc_perm id fs).length_eq
  have hm : fs.length / 2 < (sortedAsc id fs).length := by rw [hlen]; omega
  have hm' : fs.length / 2 - 1 < (sortedAsc id fs).length := by omega
  unfold nsMedian
  dsimp only
  rw [List.getElem?_eq_getElem hm, List.getElem?_eq_getElem hm']
  split
  · exact ⟨_, _, rfl, rfl, le_refl _⟩
  · refine ⟨_, _, rfl, rfl, ?_⟩
    have hle : (sortedAsc id fs)[fs.length / 2 - 1] ≤ (sortedAsc id fs)[fs.length / 2] :=
      sorted_get_le fs _ _ _ _ (by omega) (List.getElem?_eq_getElem hm') (List.getElem?_eq_getElem hm)
    generalize (sortedAsc id fs)[fs.length / 2 - 1] = a at *
    generalize (sortedAsc id fs)[fs.length / 2] = b at *
    induction a using WithBot.recBotCoe with
    | bot => exact bot_le
    | coe x =>
      induction b using WithBot.recBotCoe with
      | bot => exact bot_le
      | coe y =>
        have hxy : x ≤ y := WithBot.coe_le_coe.mp hle
        rw [WithBot.map₂_coe_coe, WithBot.coe_le_coe, div_le_iff₀ two_pos, mul_two]
        exact add_le_add_left hxy y

/-- C70, third part: the progressive minimal criterion keeps at least half of the rules, and exactly rules at least as fit as every rule it removes. -/
theorem C70_progressive {α : Type} (fitness : α → WithBot K) (rules : List α) :
    rules.length ≤ 2 * (progressiveFilter fitness rules).length ∧ (progressiveFilter fitness rules).Sublist rules ∧
      ∀ r ∈ progressiveFilter fitness rules, ∀ s ∈ rules, s ∉ progressiveFilter fitness rules → fitness s < fitness r := by
  by_cases hne : rules = []
  · subst hne; simp [progressiveFilter, nsMedian, sortedAsc]
  · obtain ⟨m, x, hm, hx, hle⟩ := nsMedian_le (rules.map fitness) (by simpa using hne)
    unfold progressiveFilter
    rw [hm]
    dsimp only
    refine ⟨?_, List.filter_sublist, ?_⟩
    · have := count_of_sorted (rules.map fitness) ((rules.map fitness).length / 2) (fun f => decide (m ≤ f)) fun i y hi hy =>
        decide_eq_true (hle.trans (sorted_get_le _ _ _ _ _ hi hx hy))
      rw [List.countP_map, List.length_map] at this
      rw [← List.countP_eq_length_filter]
      have heq : rules.countP ((fun f => decide (m ≤ f)) ∘ fitness) = rules.countP fun r => decide (m ≤ fitness r) := rfl
      rw [heq] at this
      omega
    · intro r hr s hs hns
      rw [List.mem_filter] at hr hns
      have : ¬ m ≤ fitness s := fun h => hns ⟨hs, decide_eq_true h⟩
      exact (not_le.mp this).trans_le (of_decide_eq_true hr.2)

theorem sorted_get_le_iff {F : Type} [LinearOrder F] (fs : List F) (m : Nat) (x v : F) (hx : (sortedAsc id fs)[m]? = some x) : x ≤ v ↔ m < fs.countP fun f => decide (f ≤ v) := by
  have hp := sortedAsc_perm id fs
  obtain ⟨hm, hxe⟩ := List.getElem?_eq_some_iff.mp hx
  rw [← hp.countP_eq]
  constructor
  · intro h
    have h1 : ((sortedAsc id fs).take (m + 1)).countP (fun f => decide (f ≤ v)) = ((sortedAsc id fs).take (m + 1)).length := by
      rw [List.countP_eq_length]
      intro y hy
      obtain ⟨i, hi⟩ := List.mem_iff_getElem?.mp hy
      rw [List.getElem?_take] at hi
      split at hi
      · exact decide_eq_true ((sorted_get_le fs i m y x (by omega) hi hx).trans h)
      · cases hi
    have h2 : ((sortedAsc id fs).take (m + 1)).countP (fun f => decide (f ≤ v)) ≤ (sortedAsc id fs).countP (fun f => decide (f ≤ v)) := (List.take_sublist _ _).countP_le
    rw [h1, List.length_take] at h2
    omega
  · intro h
    by_contra hlt
    have h1 : ((sortedAsc id fs).drop m).countP (fun f => decide (f ≤ v)) = 0 := by
      rw [List.countP_eq_zero]
      intro y hy hle
      obtain ⟨i, hi⟩ := List.mem_iff_getElem?.mp hy
      rw [List.getElem?_drop] at hi
      exact hlt ((sorted_get_le fs m (m + i) x y (Nat.le_add_right _ _) hx hi).trans (of_decide_eq_true hle))
    have h2 : (sortedAsc id fs).countP (fun f => decide (f ≤ v)) = ((sortedAsc id fs).take m).countP (fun f => decide (f ≤ v)) + ((sortedAsc id fs).drop m).countP (fun f => decide (f ≤ v)) := by
      rw [← List.countP_append, List.take_append_drop]
    have h3 : ((sortedAsc id fs).take m).countP (fun f => decide (f ≤ v)) ≤ ((sortedAsc id fs).take m).length := List.countP_le_length
    rw [List.length_take] at h3
    omega

/-- C70, third part, exactly: a rule is kept if and only if more than half of the rules are at most as fit (itself included), unless the number of rules is even and a fitness is -inf. -/
theorem C70_progressive_exact {α : Type} (fitness : α → WithBot K) (rules : List α) (hfin : rules.length % 2 = 1 ∨ ∀ r ∈ rules, fitness r ≠ ⊥) (r : α) :
    r ∈ progressiveFilter fitness rules ↔ r ∈ rules ∧ rules.length < 2 * rules.countP fun s => decide (fitness s ≤ fitness r) := by
  by_cases hr : r ∈ rules
  swap
  · refine ⟨fun h => absurd ((C70_progressive fitness rules).2.1.subset h) hr, fun h => absurd h.1 hr⟩
  have hne : rules.map fitness ≠ [] := by
    rw [Ne, List.map_eq_nil_iff]
    exact List.ne_nil_of_mem hr
  obtain ⟨m, x, hm, hx, hle⟩ := nsMedian_le (rules.map fitness) hne
  have hiff := sorted_get_le_iff (rules.map fitness) _ x (fitness r) hx
  rw [List.countP_map, List.length_map] at hiff
  have hcount : rules.countP ((fun f => decide (f ≤ fitness r)) ∘ fitness) = rules.countP fun s => decide (fitness s ≤ fitness r) := rfl
  rw [hcount] at hiff
  have hmid : m ≤ fitness r ↔ x ≤ fitness r := by
    refine ⟨fun h => ?_, fun h => hle.trans h⟩
    unfold nsMedian at hm
    dsimp only at hm
    by_cases hodd : (rules.map fitness).length % 2 = 1
    · rw [if_pos hodd, hx] at hm
      rw [Option.some.inj hm]; exact h
    · rw [if_neg hodd, hx] at hm
      have hfin := hfin.resolve_left (by simpa using hodd)
      cases ha : (sortedAsc id (rules.map fitness))[(rules.map fitness).length / 2 - 1]? with
      | none => rw [ha] at hm; cases hm
      | some a =>
        rw [ha] at hm
        have hm := Option.some.inj hm
        have hmem : ∀ (i : Nat) (y : WithBot K), (sortedAsc id (rules.map fitness))[i]? = some y → y ≠ ⊥ := by
          intro i y hy
          have := (sortedAsc_perm id (rules.map fitness)).mem_iff.mp (List.mem_of_getElem? hy)
          obtain ⟨s, hs, rfl⟩ := List.mem_map.mp this
          exact hfin s hs
        by_contra hlt
        rw [not_le] at hlt
        obtain ⟨i, hi⟩ := List.mem_iff_getElem?.mp ((sortedAsc_perm id (rules.map fitness)).mem_iff.mpr (List.mem_map_of_mem hr))
        have hil : i ≤ (rules.map fitness).length / 2 - 1 := by
          by_contra hcon
          exact absurd (sorted_get_le _ _ i x _ (by omega) hx hi) (not_le.mpr hlt)
        have hra := sorted_get_le _ i _ _ a hil hi ha
        have hax := hra.trans_lt' (lt_of_le_of_ne bot_le (hfin r hr).symm)
        obtain ⟨a', rfl⟩ := WithBot.ne_bot_iff_exists.mp (hmem _ a ha)
        obtain ⟨x', rfl⟩ := WithBot.ne_bot_iff_exists.mp (hmem _ x hx)
        obtain ⟨f', hf'⟩ := WithBot.ne_bot_iff_exists.mp (hfin r hr)
        rw [WithBot.map₂_coe_coe] at hm
        rw [← hf'] at h hra hlt
        rw [← hm, WithBot.coe_le_coe] at h
        rw [WithBot.coe_le_coe] at hra
        rw [WithBot.coe_lt_coe] at hlt
        have h2 : a' + x' ≤ f' * 2 := (div_le_iff₀ two_pos).mp h
        linarith
  unfold progressiveFilter
  rw [hm]
  dsimp only
  rw [List.mem_filter, decide_eq_true_iff, hmid, hiff]
  exact and_congr_right fun _ => by omega

/-- Of five rules the three fittest are kept; of four rules those with equal fitness, too. -/
example : progressiveFilter (fun x : WithBot ℚ => x) [3, ⊥, 1, 2, 5] = [3, 2, 5] ∧ progressiveFilter (fun x : WithBot ℚ => x) [1, 2, 2, 3] = [2, 2, 3] := by
  decide +kernel

example : progressiveFilter (fun x : WithBot ℚ => x) [3, ⊥, 1, 2] = [3, 2] ∧ progressiveFilter (fun x : WithBot ℚ => x) [⊥, ⊥, 1, ⊥] = [⊥, ⊥, 1, ⊥] := by
  decide +kernel

/-! ## Minimal criteria -/

/-- The percentile is not above the sorted value at the next rank. -/
theorem npPercentile_le (a : List K) (q : Nat) (hq : q ≤ 100) (hne : a ≠ []) : ∃ p m x, npPercentile a q = .ok p ∧ m < a.length ∧ 100 * m ≤ (a.length - 1) * q + 99 ∧
    (sortedAsc id a)[m]? = some x ∧ p ≤ x := by
  have hl : 0 < a.length := List.length_pos_iff.mpr hne
  have hlen : (sortedAsc id a).length = a.length := (sortedAsc_perm id a).length_eq
  have hmul : (a.length - 1) * q ≤ (a.length - 1) * 100 := Nat.mul_le_mul_left _ hq
  generalize hN : (a.length - 1) * q = N at hmul
  have hdm := Nat.div_add_mod N 100
  have hmod := Nat.mod_lt N (show 0 < 100 by norm_num)
  have hi : N / 100 < (sortedAsc id a).length := by rw [hlen]; omega
  have hj : min (N / 100 + 1) (a.length - 1) < (sortedAsc id a).length := by rw [hlen]; omega
  unfold npPercentile
  rw [if_neg (by omega)]
  dsimp only
  rw [hN, List.getElem?_eq_getElem hi, List.getElem?_eq_getElem hj]
  by_cases hr : N % 100 = 0
  · refine ⟨_, N / 100, _, rfl, by omega, by omega, List.getElem?_eq_getElem hi, ?_⟩
    rw [hr]
    simp
  · have hlt : N / 100 + 1 ≤ a.length - 1 := by omega
    refine ⟨_, min (N / 100 + 1) (a.length - 1), _, rfl, by omega, by omega, List.getElem?_eq_getElem hj, ?_⟩
    have hle := sorted_get_le a _ _ _ _ (show N / 100 ≤ min (N / 100 + 1) (a.length - 1) by omega) (List.getElem?_eq_getElem hi) (List.getElem?_eq_getElem hj)
    generalize (sortedAsc id a)[N / 100] = lo at *
    generalize (sortedAsc id a)[min (N / 100 + 1) (a.length - 1)] = hi' at *
    have ht : ((N % 100 : Nat) : K) / 100 ≤ 1 := by
      rw [div_le_one (by norm_num)]
      have : ((N % 100 : Nat) : K) ≤ ((100 : Nat) : K) := Nat.cast_le.mpr hmod.le
      simpa using this
    calc lo + (hi' - lo) * (((N % 100 : Nat) : K) / 100) ≤ lo + (hi' - lo) * 1 := by
          have := mul_le_mul_of_nonneg_left ht (sub_nonneg.mpr hle)
          linarith
      _ = hi' := by ring

/-- C77, what holds: for a parameter up to 100 the criterion never removes all rules, removes less than one rule more than `min_examples_matched` percent of all
rules but one, and never removes a rule that matches at least 25 samples. -/
theorem C77_partial (V : NsView R K) (q : Nat) (hq : q ≤ 100) (rules : List R) (hne : rules ≠ []) :
    ∃ keep, minimalCriteria V q rules = .ok keep ∧ rules.filter keep ≠ [] ∧
      100 * (rules.length - (rules.filter keep).length) ≤ (rules.length - 1) * q + 99 ∧ ∀ r ∈ rules, 25 ≤ (V.matchSet r).count true → r ∈ rules.filter keep := by
  obtain ⟨p, m, x, hp, hm, hm', hx, hle⟩ := npPercentile_le (rules.map fun r => (V.matched r : K)) q hq (by simpa using hne)
  unfold minimalCriteria
  rw [hp]
  rw [List.length_map] at hm hm'
  have hc := count_of_sorted (rules.map fun r => (V.matched r : K)) m (fun f => decide (min p 25 ≤ f)) fun i y hi hy =>
    decide_eq_true ((min_le_left _ _).trans (hle.trans (sorted_get_le _ _ _ _ _ hi hx hy)))
  rw [List.countP_map, List.length_map] at hc
  have heq : rules.countP ((fun f => decide (min p 25 ≤ f)) ∘ fun r => (V.matched r : K)) = (rules.filter fun r => decide (min p 25 ≤ (V.matched r : K))).length := by
    rw [← List.countP_eq_length_filter]; rfl
  rw [heq] at hc
  refine ⟨_, rfl, ?_, ?_, ?_⟩
  · intro h0
    rw [h0, List.length_nil] at hc
    omega
  · omega
  · intro r hr h25
    refine List.mem_filter.mpr ⟨hr, decide_eq_true ((min_le_right _ _).trans ?_)⟩
    have : ((25 : Nat) : K) ≤ (V.matched r : K) := Nat.cast_le.mpr h25
    simpa using this

/-- The number of rules kept for rules that match the given numbers of samples. -/
def keptOf (q : Nat) (counts : List Nat) : Option (List Nat) :=
  let rules : List DemoRule := counts.map fun c => (List.replicate c true, 1, c)
  match minimalCriteria demoView q rules with
  | .error _ => none
  | .ok keep => some ((rules.filter keep).map fun r => r.2.2)

/-- C77 is false: with the default of 15 examples, of two rules that match 16 and 20 samples the first one is removed, which is half of the rules; with 50 examples
half of six rules are removed. -/
theorem C77_refuted : keptOf 15 [16, 20] = some [20] ∧ keptOf 50 [1, 2, 3, 4, 5, 6] = some [4, 5, 6] := by decide +kernel

example : keptOf 15 [1, 30, 40, 50, 60] = some [30, 40, 50, 60] := by decide +kernel

end Suprb
