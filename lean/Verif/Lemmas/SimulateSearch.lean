import Verif.Lemmas.Relabel

/-!
# Random search and novelty search on related rules

Two searches with the same random numbers take the same course if rules that correspond have the same fitness and experience and the same distances between their match sets: novelty search
keeps references to rules, which are the same in both searches.
-/

set_option autoImplicit false
set_option linter.unusedSectionVars false

namespace Suprb

theorem ERel.eq_of_eq {α : Type} {x x' : Except PyErr α} (h : ERel (fun a b => b = a) x x') : x' = x := by
  cases h with
  | error e => rfl
  | ok a b h => rw [h]

theorem ERel.refl_of {α β : Type} {R : α → β → Prop} {x : Except PyErr α} {y : Except PyErr β} (h : ∀ e, x = .error e → y = .error e) (h' : ∀ a, x = .ok a → ∃ b, y = .ok b ∧ R a b) : ERel R x y := by
  cases x with
  | error e => rw [h e rfl]; exact .error e
  | ok a => obtain ⟨b, hb, hr⟩ := h' a rfl; rw [hb]; exact .ok _ _ hr

theorem forall₂_getElem? {α β : Type} {R : α → β → Prop} {l : List α} {l' : List β} (h : List.Forall₂ R l l') (i : Nat) : Option.Rel R l[i]? l'[i]? := by
  induction h generalizing i with
  | nil => simp
  | cons h1 _ ih =>
    cases i with
    | zero => simpa using Option.Rel.some h1
    | succ i => simpa using ih i

theorem forall₂_set {α β : Type} {R : α → β → Prop} {l : List α} {l' : List β} (h : List.Forall₂ R l l') (i : Nat) {a : α} {b : β} (hab : R a b) : List.Forall₂ R (l.set i a) (l'.set i b) := by
  induction h generalizing i with
  | nil => exact .nil
  | cons h1 h2 ih =>
    cases i with
    | zero => exact .cons hab h2
    | succ i => exact .cons h1 (ih i)

theorem forall₂_modify {α β : Type} {R : α → β → Prop} {l : List α} {l' : List β} (h : List.Forall₂ R l l') (i : Nat) (f : α → α) (g : β → β) (hfg : ∀ a b, R a b → R (f a) (g b)) :
    List.Forall₂ R (l.modify i f) (l'.modify i g) := by
  induction h generalizing i with
  | nil => simp
  | cons h1 h2 ih =>
    cases i with
    | zero => exact .cons (hfg _ _ h1) h2
    | succ i => exact .cons h1 (ih i)

theorem forall₂_map_map {α β γ δ : Type} {R : α → β → Prop} {S : γ → δ → Prop} {l : List α} {l' : List β} (h : List.Forall₂ R l l') (f : α → γ) (g : β → δ)
    (hfg : ∀ a b, R a b → S (f a) (g b)) : List.Forall₂ S (l.map f) (l'.map g) := by
  induction h with
  | nil => exact .nil
  | cons h1 _ ih => exact .cons (hfg _ _ h1) ih

theorem map_eq_of_forall₂ {α β γ : Type} {R : α → β → Prop} {l : List α} {l' : List β} (h : List.Forall₂ R l l') (f : α → γ) (g : β → γ) (hfg : ∀ a b, R a b → g b = f a) :
    l'.map g = l.map f := by
  induction h with
  | nil => rfl
  | cons h1 _ ih => rw [List.map_cons, List.map_cons, ih, hfg _ _ h1]

/-! ### Random search -/

theorem randomSearch_sim {A B S : Type} {R : A → B → Prop} (sel : List A → S → Except PyErr (List A)) (sel' : List B → S → Except PyErr (List B))
    (hsel : ∀ l l' s, List.Forall₂ R l l' → ERel (List.Forall₂ R) (sel l s) (sel' l' s)) (acc : A → Except PyErr Bool) (acc' : B → Except PyErr Bool) (hacc : ∀ a b, R a b → acc' b = acc a)
    (gs : List (List A × S)) (gs' : List (List B × S)) (h : List.Forall₂ (fun g g' => List.Forall₂ R g.1 g'.1 ∧ g'.2 = g.2) gs gs') :
    ERel (List.Forall₂ R) (randomSearch sel acc gs) (randomSearch sel' acc' gs') := by
  unfold randomSearch
  have h1 := ERel.mapM (S := List.Forall₂ R) (fun g => sel g.1 g.2) (fun g => sel' g.1 g.2) gs gs' h (by rintro ⟨g, s⟩ ⟨g', s'⟩ ⟨hg, rfl⟩; exact hsel g g' s' hg)
  revert h1
  generalize gs.mapM (fun g => sel g.1 g.2) = x
  generalize gs'.mapM (fun g => sel' g.1 g.2) = x'
  intro h1
  cases h1 with
  | error e => exact .error e
  | ok l l' hl =>
    refine filterInvalid_sim acc acc' hacc _ _ (forall₂_map_map (R := R) ?_ some some fun _ _ h => .some h)
    induction hl with
    | nil => exact .nil
    | cons h1 _ ih => exact forall₂_append h1 ih

/-! ### Novelty search -/

section NS

variable {K : Type} [Field K] [LinearOrder K] [IsStrictOrderedRing K] {A B : Type}

/-- Corresponding rules look the same to novelty search, apart from the order of their match sets and from the fitness values, of which only the order is the same. -/
structure NsViewSim (h : K → K) (R : A → B → Prop) (V : NsView A K) (V' : NsView B K) : Prop where
  mono : StrictMono h
  hamming : ∀ a a' b b', R a a' → R b b' → (hamming (V'.matchSet a') (V'.matchSet b') : Except PyErr K) = hamming (V.matchSet a) (V.matchSet b)
  matched : ∀ a a', R a a' → V'.matched a' = V.matched a
  fitness : ∀ a a', R a a' → V'.fitness a' = (V.fitness a).map h
  experience : ∀ a a', R a a' → V'.experience a' = V.experience a

/-- Corresponding rules with the same attributes of novelty search. -/
structure NsObjRel (R : A → B → Prop) (o : NsObj A K) (o' : NsObj B K) : Prop where
  rule : R o.rule o'.rule
  distances : o'.distances = o.distances
  idx : o'.idx = o.idx
  novelty : o'.novelty = o.novelty

abbrev StoreRel (R : A → B → Prop) (st : Store A K) (st' : Store B K) : Prop := List.Forall₂ (NsObjRel R) st st'

/-- The variants of novelty search that only compare fitness values. -/
def NsVariant.ByOrder : NsVariant K → Prop
  | .biased _ _ => False
  | _ => True

/-! ### Only the order of the fitness values -/

section Order

variable {h : K → K} (hm : StrictMono h)

include hm

theorem withBot_map_lt (x y : WithBot K) : x.map h < y.map h ↔ x < y := (hm.withBot_map).lt_iff_lt

theorem withBot_map_le (x y : WithBot K) : x.map h ≤ y.map h ↔ x ≤ y := (hm.withBot_map).le_iff_le

theorem sortedAsc_map_order (l : List (WithBot K)) : sortedAsc id (l.map (WithBot.map h)) = (sortedAsc id l).map (WithBot.map h) := by
  unfold sortedAsc
  induction l with
  | nil => rfl
  | cons a as ih =>
    rw [List.map_cons, List.insertionSort_cons, List.insertionSort_cons, ih]
    generalize List.insertionSort (fun a b : WithBot K => id a ≤ id b) as = s
    induction s with
    | nil => rfl
    | cons b bs ihb =>
      rw [List.map_cons, List.orderedInsert_cons, List.orderedInsert_cons]
      dsimp only [id]
      by_cases hab : a ≤ b
      · rw [if_pos hab, if_pos ((withBot_map_le hm a b).mpr hab)]; rfl
      · rw [if_neg hab, if_neg fun hh => hab ((withBot_map_le hm a b).mp hh), List.map_cons]; exact congrArg _ ihb

omit hm in
/-- What is at least the mean of two neighbours in the sorted list. -/
theorem mean_le_iff (s : List (WithBot K)) (hs : s.Pairwise (· ≤ ·)) (m : Nat) (hm0 : 0 < m) (a b x : WithBot K) (ha : s[m - 1]? = some a) (hb : s[m]? = some b) (hx : x ∈ s) :
    WithBot.map₂ (fun x y : K => (x + y) / 2) a b ≤ x ↔ a = ⊥ ∨ b ≤ x := by
  obtain ⟨i, hi, rfl⟩ := List.getElem_of_mem hx
  obtain ⟨h1, rfl⟩ := List.getElem?_eq_some_iff.mp ha
  obtain ⟨h2, rfl⟩ := List.getElem?_eq_some_iff.mp hb
  have hle : ∀ i j (hi : i < s.length) (hj : j < s.length), i ≤ j → s[i] ≤ s[j] := by
    intro i j hi hj hij
    rcases Nat.lt_or_eq_of_le hij with h | h
    · exact List.pairwise_iff_getElem.mp hs i j hi hj h
    · subst h; exact le_rfl
  have hab := hle (m - 1) m h1 h2 (by omega)
  have hcase : s[i] ≤ s[m - 1] ∨ s[m] ≤ s[i] := by
    rcases Nat.lt_or_ge i m with h | h
    · exact .inl (hle _ _ hi h1 (by omega))
    · exact .inr (hle _ _ h2 hi h)
  revert hab hcase
  generalize s[m - 1] = a
  generalize s[m] = b
  generalize s[i] = x
  intro hab hcase
  induction a using WithBot.recBotCoe with
  | bot => simp
  | coe a =>
    induction b using WithBot.recBotCoe with
    | bot => simp at hab
    | coe b =>
      have hab := WithBot.coe_le_coe.mp hab
      rw [WithBot.map₂_coe_coe]
      induction x using WithBot.recBotCoe with
      | bot => simp
      | coe x =>
        rw [WithBot.coe_le_coe, WithBot.coe_le_coe] at hcase
        rw [WithBot.coe_le_coe, WithBot.coe_le_coe]
        simp only [WithBot.coe_ne_bot, false_or]
        constructor
        · intro h
          rcases hcase with hc | hc
          · linarith
          · exact hc
        · intro h; linarith

theorem progressiveFilter_map_order {α : Type} (f : α → WithBot K) (rules : List α) : progressiveFilter (fun r => (f r).map h) rules = progressiveFilter f rules := by
  unfold progressiveFilter nsMedian
  rw [show rules.map (fun r => (f r).map h) = (rules.map f).map (WithBot.map h) by rw [List.map_map]; rfl, sortedAsc_map_order hm]
  dsimp only
  rw [List.length_map, List.length_map, List.getElem?_map, List.getElem?_map]
  by_cases ho : rules.length % 2 = 1
  · rw [if_pos ho, if_pos ho]
    cases (sortedAsc id (rules.map f))[rules.length / 2]? with
    | none => rfl
    | some m => exact List.filter_congr fun r _ => decide_eq_decide.mpr (withBot_map_le hm _ _)
  · rw [if_neg ho, if_neg ho]
    cases ha : (sortedAsc id (rules.map f))[rules.length / 2 - 1]? with
    | none => rfl
    | some a =>
      cases hb : (sortedAsc id (rules.map f))[rules.length / 2]? with
      | none => rfl
      | some b =>
        refine List.filter_congr fun r hr => decide_eq_decide.mpr ?_
        have hperm : (sortedAsc id (rules.map f)).Perm (rules.map f) := List.perm_insertionSort _ _
        have hsort : (sortedAsc id (rules.map f)).Pairwise (· ≤ ·) := List.pairwise_insertionSort (fun a b : WithBot K => a ≤ b) _
        have h0 : 0 < rules.length / 2 := by
          have := List.length_pos_of_mem hr
          omega
        have hx : f r ∈ sortedAsc id (rules.map f) := hperm.mem_iff.mpr (List.mem_map_of_mem hr)
        rw [mean_le_iff _ hsort _ h0 a b (f r) ha hb hx,
          mean_le_iff ((sortedAsc id (rules.map f)).map (WithBot.map h)) (hsort.map _ fun x y hxy => (withBot_map_le hm x y).mpr hxy) _ h0 (a.map h) (b.map h) ((f r).map h)
            (by rw [List.getElem?_map, ha]; rfl) (by rw [List.getElem?_map, hb]; rfl) (List.mem_map_of_mem hx), withBot_map_le hm, WithBot.map_eq_bot_iff]

theorem paretoFront_map_order {α G : Type} [LinearOrder G] (nov : α → G) (f : α → WithBot K) (rules : List α) : paretoFront nov (fun r => (f r).map h) rules = paretoFront nov f rules := by
  unfold paretoFront
  have hsort : sortedDesc (fun r => toLex (nov r, (f r).map h)) rules = sortedDesc (fun r => toLex (nov r, f r)) rules := by
    unfold sortedDesc
    congr 1
    funext a b
    rw [Prod.Lex.toLex_le_toLex, Prod.Lex.toLex_le_toLex]
    dsimp only
    rw [withBot_map_le hm]
  rw [hsort]
  cases sortedDesc (fun r => toLex (nov r, f r)) rules with
  | nil => rfl
  | cons r rest =>
    dsimp only
    congr 2
    generalize f r = last
    induction rest generalizing last with
    | nil => rfl
    | cons a as ih =>
      unfold paretoLoop
      by_cases hc : last ≤ f a
      · rw [if_pos hc, if_pos ((withBot_map_le hm _ _).mpr hc), ih]
      · rw [if_neg hc, if_neg fun h' => hc ((withBot_map_le hm _ _).mp h'), ih]

end Order

variable {h : K → K} {R : A → B → Prop} {V : NsView A K} {V' : NsView B K} (hV : NsViewSim h R V V') {st : Store A K} {st' : Store B K} (hst : StoreRel R st st')

theorem rel_map_getD {α β γ : Type} {S : α → β → Prop} {o : Option α} {o' : Option β} (h : Option.Rel S o o') (f : α → γ) (g : β → γ) (hfg : ∀ a b, S a b → g b = f a) (x : γ) :
    (o'.map g).getD x = (o.map f).getD x := by
  cases h with
  | none => rfl
  | some h => exact hfg _ _ h

include hst in
theorem noveltyOf_sim : noveltyOf st' = noveltyOf st := by
  funext r
  unfold noveltyOf
  have h := forall₂_getElem? hst r
  revert h
  generalize st[r]? = o
  generalize st'[r]? = o'
  intro h
  cases h with
  | none => rfl
  | some h => simp only [Option.bind, h.novelty]

include hV hst

theorem fitnessAt_sim : fitnessAt V' st' = fun r => (fitnessAt V st r).map h := by
  funext r
  unfold fitnessAt
  have h1 := forall₂_getElem? hst r
  revert h1
  generalize st[r]? = o
  generalize st'[r]? = o'
  intro h1
  cases h1 with
  | none => rfl
  | some h1 => exact hV.fitness _ _ h1.rule

theorem experienceAt_sim : experienceAt V' st' = experienceAt V st := by
  funext r
  exact rel_map_getD (forall₂_getElem? hst r) _ _ (fun a b h => hV.experience _ _ h.rule) _

omit hV in
theorem rules_sim (refs : List Nat) : List.Forall₂ R (refs.filterMap fun r => st[r]?.map NsObj.rule) (refs.filterMap fun r => st'[r]?.map NsObj.rule) := by
  induction refs with
  | nil => exact .nil
  | cons r rs ih =>
    rw [List.filterMap_cons, List.filterMap_cons]
    have h := forall₂_getElem? hst r
    revert h
    generalize st[r]? = o
    generalize st'[r]? = o'
    intro h
    cases h with
    | none => exact ih
    | some h => exact .cons h.rule ih

theorem filterRules_sim (t : NsType) (refs : List Nat) : filterRules V' st' t refs = filterRules V st t refs := by
  unfold filterRules
  cases t with
  | plain => rfl
  | localCompetition n => rfl
  | minimalCriteria q =>
    unfold minimalCriteria
    dsimp only
    rw [map_eq_of_forall₂ (rules_sim hst refs) (fun r => (V.matched r : K)) (fun r => (V'.matched r : K)) fun a b h => by rw [hV.matched a b h]]
    generalize npPercentile (List.map (fun r => (V.matched r : K)) _) q = y
    cases y with
    | error e => rfl
    | ok p =>
      dsimp only
      congr 1
      refine List.filter_congr fun r _ => ?_
      exact rel_map_getD (forall₂_getElem? hst r) _ _ (fun a b h => by rw [hV.matched _ _ h.rule]) _

theorem localCompetition_sim (t : NsType) (a : A) (b : B) (hab : R a b) (archive : List Nat) : localCompetition V' st' t b archive = localCompetition V st t a archive := by
  unfold localCompetition
  cases t with
  | plain => rfl
  | minimalCriteria q => rfl
  | localCompetition n =>
    dsimp only
    have e : (fun c : Nat => decide (V'.fitness b < (st'[c]?.map fun o : NsObj B K => V'.fitness o.rule).getD ⊥)) = fun c : Nat => decide (V.fitness a < (st[c]?.map fun o : NsObj A K => V.fitness o.rule).getD ⊥) := by
      funext c
      have hc := congrFun (fitnessAt_sim hV hst) c
      unfold fitnessAt at hc
      rw [hc, hV.fitness a b hab]
      exact decide_eq_decide.mpr (withBot_map_lt hV.mono _ _)
    rw [e]

omit hV in
theorem appendDistance_sim (r : Nat) (x : K) : ERel (StoreRel R) (appendDistance st r x) (appendDistance st' r x) := by
  unfold appendDistance
  have h := forall₂_getElem? hst r
  revert h
  generalize st[r]? = o
  generalize st'[r]? = o'
  intro h
  cases h with
  | none => exact .error _
  | @some o o' h =>
    dsimp only
    rw [h.distances]
    cases o.distances with
    | none => exact .error _
    | some ds => exact .ok _ _ (forall₂_set hst r ⟨h.rule, rfl, h.idx, h.novelty⟩)

theorem distancesTo_sim (r : Nat) (archive : List Nat) : ERel (StoreRel R) (distancesTo V r archive st) (distancesTo V' r archive st') := by
  induction archive generalizing st st' with
  | nil => exact .ok _ _ hst
  | cons a rest ih =>
    unfold distancesTo
    have h := forall₂_getElem? hst r
    have h' := forall₂_getElem? hst a
    revert h h'
    generalize st[r]? = o
    generalize st'[r]? = o'
    generalize st[a]? = b
    generalize st'[a]? = b'
    intro h h'
    cases h with
    | none => exact .error _
    | @some o o' h =>
      cases h' with
      | none => exact .error _
      | @some b b' h' =>
        dsimp only
        rw [hV.hamming _ _ _ _ h.rule h'.rule]
        cases (Suprb.hamming (V.matchSet o.rule) (V.matchSet b.rule) : Except PyErr K) with
        | error e => exact .error _
        | ok x =>
          dsimp only
          have h1 := appendDistance_sim hst a x
          revert h1
          generalize appendDistance st a x = y
          generalize appendDistance st' a x = y'
          intro h1
          cases h1 with
          | error e => exact .error _
          | ok s1 s1' hs1 =>
            dsimp only
            have h2 := appendDistance_sim hs1 r x
            revert h2
            generalize appendDistance s1 r x = y
            generalize appendDistance s1' r x = y'
            intro h2
            cases h2 with
            | error e => exact .error _
            | ok s2 s2' hs2 => exact ih hs2

theorem joinArchive_sim (archive : List Nat) (r : Nat) : ERel (StoreRel R) (joinArchive V st archive r) (joinArchive V' st' archive r) := by
  unfold joinArchive
  have h := forall₂_getElem? hst r
  revert h
  generalize st[r]? = o
  generalize st'[r]? = o'
  intro h
  cases h with
  | none => exact .error _
  | @some o o' h =>
    dsimp only
    have hidx := h.idx
    by_cases hc : (o.idx.all fun i => decide (archive.length < i)) = true
    · rw [if_pos hc, if_pos (show (o'.idx.all fun i => decide (archive.length < i)) = true by rw [hidx]; exact hc)]
      have h1 := distancesTo_sim hV (forall₂_set hst r (a := { o with distances := some [] }) (b := { o' with distances := some [] }) ⟨h.rule, rfl, h.idx, h.novelty⟩) r archive
      revert h1
      generalize distancesTo V r archive _ = y
      generalize distancesTo V' r archive _ = y'
      intro h1
      cases h1 with
      | error e => exact .error _
      | ok s1 s1' hs1 =>
        dsimp only
        have h2 := appendDistance_sim hs1 r (0 : K)
        revert h2
        generalize appendDistance s1 r (0 : K) = y
        generalize appendDistance s1' r (0 : K) = y'
        intro h2
        cases h2 with
        | error e => exact .error _
        | ok s2 s2' hs2 => exact .ok _ _ (forall₂_modify hs2 r _ _ fun a b h => ⟨h.rule, h.distances, rfl, h.novelty⟩)
    · rw [if_neg hc, if_neg (show ¬ (o'.idx.all fun i => decide (archive.length < i)) = true by rw [hidx]; exact hc)]
      exact .ok _ _ hst

theorem joinAll_sim (rules archive : List Nat) : ERel (fun p q => StoreRel R p.1 q.1 ∧ q.2 = p.2) (joinAll V rules st archive) (joinAll V' rules st' archive) := by
  induction rules generalizing st st' archive with
  | nil => exact .ok _ _ ⟨hst, rfl⟩
  | cons r rest ih =>
    unfold joinAll
    have h1 := joinArchive_sim hV hst archive r
    revert h1
    generalize joinArchive V st archive r = y
    generalize joinArchive V' st' archive r = y'
    intro h1
    cases h1 with
    | error e => exact .error _
    | ok s1 s1' hs1 => exact ih hs1 _

omit hst in
theorem noveltyBase_sim (v : NsVariant K) (hv : v.ByOrder ∨ h = id) (k : Nat) {o : NsObj A K} {o' : NsObj B K} (ho : NsObjRel R o o') : noveltyBase V' v k o' = noveltyBase V v k o := by
  unfold noveltyBase
  rw [ho.distances, hV.fitness _ _ ho.rule]
  rcases hv with hv | hv
  · cases v with
    | biased _ _ => exact hv.elim
    | _ => rfl
  · rw [hv, WithBot.map_id]; rfl

theorem scoreAll_sim (v : NsVariant K) (hv : v.ByOrder ∨ h = id) (t : NsType) (k : Nat) (archive rules : List Nat) : ERel (StoreRel R) (scoreAll V v t k archive rules st) (scoreAll V' v t k archive rules st') := by
  induction rules generalizing st st' with
  | nil => exact .ok _ _ hst
  | cons r rest ih =>
    unfold scoreAll
    have h := forall₂_getElem? hst r
    revert h
    generalize st[r]? = o
    generalize st'[r]? = o'
    intro h
    cases h with
    | none => exact .error _
    | @some o o' h =>
      dsimp only
      rw [localCompetition_sim hV hst t _ _ h.rule, noveltyBase_sim hV v hv k h]
      cases localCompetition V st t o.rule archive with
      | error e => exact .error _
      | ok lc =>
        dsimp only
        cases noveltyBase V v k o with
        | error e => exact .error _
        | ok s => exact ih (forall₂_set hst r ⟨h.rule, h.distances, h.idx, rfl⟩)

theorem progressiveFilter_sim (rules : List Nat) : progressiveFilter (fitnessAt V' st') rules = progressiveFilter (fitnessAt V st) rules := by
  rw [fitnessAt_sim hV hst]
  exact progressiveFilter_map_order hV.mono _ _

theorem noveltyScores_sim (v : NsVariant K) (hv : v.ByOrder ∨ h = id) (t : NsType) (k : Nat) (archive rules : List Nat) :
    ERel (fun p q => StoreRel R p.1 q.1 ∧ q.2 = p.2) (noveltyScores V v t k archive rules st) (noveltyScores V' v t k archive rules st') := by
  unfold noveltyScores
  rw [progressiveFilter_sim hV hst]
  dsimp only
  rw [filterRules_sim hV hst]
  generalize filterRules V st t _ = y
  cases y with
  | error e => exact .error _
  | ok filtered =>
    dsimp only
    have h1 := joinAll_sim hV hst filtered archive
    revert h1
    generalize joinAll V filtered st archive = y
    generalize joinAll V' filtered st' archive = y'
    intro h1
    cases h1 with
    | error e => exact .error _
    | ok p p' h =>
      obtain ⟨s1, archive1⟩ := p
      obtain ⟨s1', archive1'⟩ := p'
      obtain ⟨hs1, rfl⟩ := h
      dsimp only
      have h2 := scoreAll_sim hV hs1 v hv t k archive1' filtered
      revert h2
      generalize scoreAll V v t k archive1' filtered s1 = y
      generalize scoreAll V' v t k archive1' filtered s1' = y'
      intro h2
      cases h2 with
      | error e => exact .error _
      | ok s2 s2' hs2 =>
        cases v with
        | pareto =>
          dsimp only
          rw [noveltyOf_sim hs2, fitnessAt_sim hV hs2, paretoFront_map_order hV.mono]
          cases paretoFront (noveltyOf s2) (fitnessAt V s2) filtered with
          | error e => exact .error _
          | ok front => exact .ok _ _ ⟨hs2, rfl⟩
        | basic => exact .ok _ _ ⟨hs2, rfl⟩
        | progressive => exact .ok _ _ ⟨hs2, rfl⟩
        | biased nb fb => exact .ok _ _ ⟨hs2, rfl⟩

theorem byNovelty_sim (rules : List Nat) : byNovelty V' st' rules = byNovelty V st rules := by
  unfold byNovelty
  rw [noveltyOf_sim hst, experienceAt_sim hV hst]

theorem archiveAdds_sim (a : NsArchive) (rules : List Nat) (n : Nat) : archiveAdds V' st' a rules n = archiveAdds V st a rules n := by
  cases a with
  | novel => unfold archiveAdds; dsimp only; rw [byNovelty_sim hV hst]
  | random perm => rfl
  | none_ => rfl

omit hV hst

/-- Two states of the search that correspond: the same references, corresponding objects. -/
structure NsStateRel (R : A → B → Prop) (s : NsState A K) (s' : NsState B K) : Prop where
  store : StoreRel R s.store s'.store
  archive : s'.archive = s.archive
  population : s'.population = s.population
  best : s'.best = s.best
  log : s'.log = s.log

include hV

theorem ruleSelection_sim (cfg : NsCfg K) (hcfg : cfg.variant.ByOrder ∨ h = id) (a : NsArchive) {s : NsState A K} {s' : NsState B K} (hs : NsStateRel R s s') (rules : List Nat) (n roh : Nat) :
    ERel (fun p q => NsStateRel R p.1 q.1 ∧ q.2 = p.2) (ruleSelection V cfg a s rules n roh) (ruleSelection V' cfg a s' rules n roh) := by
  unfold ruleSelection
  rw [hs.archive]
  have h1 := noveltyScores_sim hV hs.store cfg.variant hcfg cfg.type cfg.k s.archive rules
  revert h1
  generalize noveltyScores V cfg.variant cfg.type cfg.k s.archive rules s.store = y
  generalize noveltyScores V' cfg.variant cfg.type cfg.k s.archive rules s'.store = y'
  intro h1
  cases h1 with
  | error e => exact .error _
  | ok p p' h =>
    obtain ⟨st, ns⟩ := p
    obtain ⟨st', ns'⟩ := p'
    obtain ⟨hst, rfl⟩ := h
    dsimp only at hst ⊢
    rw [archiveAdds_sim hV hst, noveltyOf_sim hst, byNovelty_sim hV hst]
    exact .ok _ _ ⟨⟨hst, rfl, hs.population, hs.best, by rw [hs.log]⟩, rfl⟩

omit hV

theorem pairUp_sim {l : List A} {l' : List B} (h : List.Forall₂ R l l') : List.Forall₂ (fun p q => R p.1 q.1 ∧ R p.2 q.2) (pairUp l) (pairUp l') := by
  induction l using pairUp.induct generalizing l' with
  | case1 a b rest ih =>
    cases h with
    | cons h1 h =>
      cases h with
      | cons h2 h => exact .cons ⟨h1, h2⟩ (ih h)
  | case2 l hl =>
    cases h with
    | nil => exact .nil
    | cons h1 h =>
      cases h with
      | nil => exact .nil
      | cons h2 h => exact absurd rfl (hl _ _ _)

/-- The draws of an iteration that correspond. -/
structure NsDrawRel {Z Z' : Type} (R : A → B → Prop) (S : Z → Z' → Prop) (d : NsDraw A Z) (d' : NsDraw B Z') : Prop where
  parents : ∀ pop pop', List.Forall₂ R pop pop' → d'.parents pop' = d.parents pop
  breed : ∀ i, S (d.breed i) (d'.breed i)
  children : d'.archiveChildren = d.archiveChildren
  archive : d'.archiveParents = d.archiveParents

variable {Z Z' : Type} {S : Z → Z' → Prop} {breed : A → A → Z → Except PyErr (List A)} {breed' : B → B → Z' → Except PyErr (List B)}
  (hb : ∀ a a' b b' z z', R a a' → R b b' → S z z' → ERel (List.Forall₂ R) (breed a b z) (breed' a' b' z'))

include hb in
theorem nsChildren_sim (z : Nat → Z) (z' : Nat → Z') (hz : ∀ i, S (z i) (z' i)) (ps : List (A × A)) (ps' : List (B × B)) (h : List.Forall₂ (fun p q => R p.1 q.1 ∧ R p.2 q.2) ps ps') (i : Nat) :
    ERel (List.Forall₂ R) (nsChildren breed z i ps) (nsChildren breed' z' i ps') := by
  induction h generalizing i with
  | nil => exact .ok _ _ .nil
  | @cons p q _ _ h1 _ ih =>
    obtain ⟨a, b⟩ := p
    obtain ⟨a', b'⟩ := q
    unfold nsChildren
    have h2 := hb a a' b b' _ _ h1.1 h1.2 (hz i)
    revert h2
    generalize breed a b (z i) = y
    generalize breed' a' b' (z' i) = y'
    intro h2
    cases h2 with
    | error e => exact .error _
    | ok cs cs' hcs =>
      dsimp only
      have h3 := ih (i + 1)
      revert h3
      generalize nsChildren breed z (i + 1) _ = y
      generalize nsChildren breed' z' (i + 1) _ = y'
      intro h3
      cases h3 with
      | error e => exact .error _
      | ok ds ds' hds => exact .ok _ _ (forall₂_append hcs hds)

theorem selectParents_sim {s : NsState A K} {s' : NsState B K} (hs : NsStateRel R s s') {d : NsDraw A Z} {d' : NsDraw B Z'} (hd : NsDrawRel R S d d') : selectParents s' d' = selectParents s d := by
  unfold selectParents
  rw [hs.population, hd.parents _ _ (rules_sim hs.store s.population)]

include hV hb

theorem nsStep_sim (cfg : NsCfg K) (hcfg : cfg.variant.ByOrder ∨ h = id) (valid : A → Bool) (valid' : B → Bool) (hv : ∀ a b, R a b → valid' b = valid a) {s : NsState A K} {s' : NsState B K} (hs : NsStateRel R s s') {d : NsDraw A Z}
    {d' : NsDraw B Z'} (hd : NsDrawRel R S d d') : ERel (NsStateRel R) (nsStep V cfg breed valid s d) (nsStep V' cfg breed' valid' s' d') := by
  unfold nsStep
  rw [selectParents_sim hs hd]
  cases selectParents s d with
  | error e => exact .error _
  | ok parents =>
    dsimp only
    by_cases hp : parents = []
    · rw [if_pos hp, if_pos hp]; exact .ok _ _ hs
    · rw [if_neg hp, if_neg hp]
      have h1 := nsChildren_sim hb d.breed d'.breed hd.breed _ _ (pairUp_sim (rules_sim hs.store parents)) 0
      revert h1
      generalize nsChildren breed d.breed 0 _ = y
      generalize nsChildren breed' d'.breed 0 _ = y'
      intro h1
      cases h1 with
      | error e => exact .error _
      | ok cs cs' hcs =>
        dsimp only
        have hf := forall₂_filter valid valid' hv _ _ hcs
        revert hf
        generalize cs.filter valid = fresh
        generalize cs'.filter valid' = fresh'
        intro hf
        by_cases h0 : fresh = []
        · have h0' : fresh' = [] := by subst h0; cases hf; rfl
          rw [if_pos h0, if_pos h0']; exact .ok _ _ hs
        · have h0' : fresh' ≠ [] := by rintro rfl; cases hf; exact h0 rfl
          rw [if_neg h0, if_neg h0', hd.children, hd.archive, ← hf.length_eq, ← hs.store.length_eq]
          have hs1 : NsStateRel R { s with store := s.store ++ fresh.map fun r => { rule := r } } { s' with store := s'.store ++ fresh'.map fun r => { rule := r } } :=
            ⟨forall₂_append hs.store (forall₂_map_map hf _ _ fun a b h => ⟨h, rfl, rfl, rfl⟩), hs.archive, hs.population, hs.best, hs.log⟩
          have h2 := ruleSelection_sim hV cfg hcfg d.archiveChildren hs1 ((List.range fresh.length).map (s.store.length + ·)) cfg.mu cfg.roh
          revert h2
          generalize ruleSelection V cfg d.archiveChildren _ _ cfg.mu cfg.roh = y
          generalize ruleSelection V' cfg d.archiveChildren _ _ cfg.mu cfg.roh = y'
          intro h2
          cases h2 with
          | error e => exact .error _
          | ok p p' h =>
            obtain ⟨s2, best⟩ := p
            obtain ⟨s2', best'⟩ := p'
            obtain ⟨hs2, rfl⟩ := h
            dsimp only
            have h3 := ruleSelection_sim hV cfg hcfg d.archiveParents hs2 parents cfg.nElitists 0
            revert h3
            generalize ruleSelection V cfg d.archiveParents _ _ cfg.nElitists 0 = y
            generalize ruleSelection V' cfg d.archiveParents _ _ cfg.nElitists 0 = y'
            intro h3
            cases h3 with
            | error e => exact .error _
            | ok p p' h =>
              obtain ⟨s3, bp⟩ := p
              obtain ⟨s3', bp'⟩ := p'
              obtain ⟨hs3, rfl⟩ := h
              exact .ok _ _ ⟨hs3.store, hs3.archive, rfl, rfl, hs3.log⟩

/-- Novelty search on corresponding rules with corresponding draws finds corresponding rules. -/
theorem nsOptimize_sim (cfg : NsCfg K) (hcfg : cfg.variant.ByOrder ∨ h = id) (valid : A → Bool) (valid' : B → Bool) (hv : ∀ a b, R a b → valid' b = valid a) (acc : A → Except PyErr Bool) (acc' : B → Except PyErr Bool)
    (hacc : ∀ a b, R a b → acc' b = acc a) (n : Nat) {pool : Store A K} {pool' : Store B K} (hp : StoreRel R pool pool') {initial : List A} {initial' : List B} (hi : List.Forall₂ R initial initial')
    (ds : List (NsDraw A Z)) (ds' : List (NsDraw B Z')) (hd : List.Forall₂ (NsDrawRel R S) ds ds') :
    ERel (List.Forall₂ R) (nsOptimize V cfg breed valid acc n pool initial ds) (nsOptimize V' cfg breed' valid' acc' n pool' initial' ds') := by
  unfold nsOptimize
  have hs : NsStateRel R (nsStart pool initial) (nsStart pool' initial') := by
    unfold nsStart
    exact ⟨forall₂_append hp (forall₂_map_map hi _ _ fun a b h => ⟨h, rfl, rfl, rfl⟩), by rw [hp.length_eq], by rw [hp.length_eq, hi.length_eq], rfl, rfl⟩
  have h1 : ERel (NsStateRel R) (ds.foldlM (nsStep V cfg breed valid) (nsStart pool initial)) (ds'.foldlM (nsStep V' cfg breed' valid') (nsStart pool' initial')) := by
    revert hs
    generalize nsStart pool initial = s
    generalize nsStart pool' initial' = s'
    intro hs
    induction hd generalizing s s' with
    | nil => exact .ok _ _ hs
    | cons h1 _ ih =>
      rw [List.foldlM_cons, List.foldlM_cons]
      have h2 := nsStep_sim hV hb cfg hcfg valid valid' hv hs h1
      revert h2
      generalize nsStep V cfg breed valid s _ = y
      generalize nsStep V' cfg breed' valid' s' _ = y'
      intro h2
      cases h2 with
      | error e => exact .error _
      | ok s1 s1' hs1 => exact ih _ _ hs1
  revert h1
  generalize ds.foldlM (nsStep V cfg breed valid) (nsStart pool initial) = y
  generalize ds'.foldlM (nsStep V' cfg breed' valid') (nsStart pool' initial') = y'
  intro h1
  cases h1 with
  | error e => exact .error _
  | ok s s' hs =>
    dsimp only
    refine filterInvalid_sim acc acc' hacc _ _ ?_
    rw [hs.best]
    generalize s.best.take n = l
    induction l with
    | nil => exact .nil
    | cons r rs ih =>
      refine .cons ?_ ih
      have h := forall₂_getElem? hs.store r
      show Option.Rel R (s.store[r]?.map NsObj.rule) (s'.store[r]?.map NsObj.rule)
      revert h
      generalize s.store[r]? = o
      generalize s'.store[r]? = o'
      intro h
      cases h with
      | none => exact .none
      | some h => exact .some h.rule

end NS

end Suprb
