import Verif.Model.Search
import Verif.Lemmas.Rule
import Verif.Lemmas.Simulate

/-!
# The same data with its features reordered or measured in other units

`Relabel` says how samples, bounds and random numbers are rewritten; `Relabel.Lawful` that matching, initialisation, mutation, constraints and the bounds of the data commute with it.
Rule discovery on the rewritten data then gives the rewritten rules.
-/

set_option autoImplicit false
set_option linter.unusedSectionVars false

namespace Suprb

open Spec

theorem ERel.map_some {α β : Type} {R : α → β → Prop} {a : Except PyErr α} {b : Except PyErr β} (h : ERel R a b) : ERel (Option.Rel R) (a.map some) (b.map some) := by
  cases h with
  | error e => exact .error e
  | ok a b h => exact .ok _ _ (.some h)

theorem forall₂_orderedInsert {α β F F' : Type} [LE F] [DecidableLE F] [LE F'] [DecidableLE F'] {R : α → β → Prop} (ka : α → F) (kb : β → F')
    (hk : ∀ a b a' b', R a b → R a' b' → (kb b ≤ kb b' ↔ ka a ≤ ka a')) (a : α) (b : β) (h : R a b) (l : List α) (l' : List β) (hl : List.Forall₂ R l l') :
    List.Forall₂ R (l.orderedInsert (fun u v => ka v ≤ ka u) a) (l'.orderedInsert (fun u v => kb v ≤ kb u) b) := by
  induction hl with
  | nil => exact .cons h .nil
  | @cons a1 b1 _ _ h1 h2 ih =>
    simp only [List.orderedInsert]
    by_cases hc : ka a1 ≤ ka a
    · rw [if_pos hc, if_pos ((hk _ _ _ _ h1 h).mpr hc)]
      exact .cons h (.cons h1 h2)
    · rw [if_neg hc, if_neg fun hc' => hc ((hk _ _ _ _ h1 h).mp hc')]
      exact .cons h1 ih

/-- Sorting by keys in the same order. -/
theorem forall₂_sortedDesc_of_order {α β F F' : Type} [LE F] [DecidableLE F] [LE F'] [DecidableLE F'] {R : α → β → Prop} (ka : α → F) (kb : β → F')
    (hk : ∀ a b a' b', R a b → R a' b' → (kb b ≤ kb b' ↔ ka a ≤ ka a')) (l : List α) (l' : List β) (hl : List.Forall₂ R l l') :
    List.Forall₂ R (sortedDesc ka l) (sortedDesc kb l') := by
  unfold sortedDesc
  induction hl with
  | nil => exact .nil
  | cons h1 _ ih => exact forall₂_orderedInsert ka kb hk _ _ h1 _ _ ih

theorem forall₂_sortedDesc {α β F : Type} [LE F] [DecidableLE F] {R : α → β → Prop} (ka : α → F) (kb : β → F) (hk : ∀ a b, R a b → kb b = ka a) (l : List α) (l' : List β)
    (hl : List.Forall₂ R l l') : List.Forall₂ R (sortedDesc ka l) (sortedDesc kb l') :=
  forall₂_sortedDesc_of_order ka kb (fun _ _ _ _ h h' => by rw [hk _ _ h, hk _ _ h']) l l' hl

theorem forall₂_filter {α β : Type} {R : α → β → Prop} (p : α → Bool) (q : β → Bool) (h : ∀ a b, R a b → q b = p a) (l : List α) (l' : List β) (hl : List.Forall₂ R l l') :
    List.Forall₂ R (l.filter p) (l'.filter q) := by
  induction hl with
  | nil => exact .nil
  | @cons a b l l' h1 _ ih =>
    cases hp : p a with
    | true => rw [List.filter_cons_of_pos hp, List.filter_cons_of_pos (by rw [h a b h1, hp])]; exact .cons h1 ih
    | false => rw [List.filter_cons_of_neg (by rw [hp]; simp), List.filter_cons_of_neg (by rw [h a b h1, hp]; simp)]; exact ih

theorem forall₂_take {α β : Type} {R : α → β → Prop} (n : Nat) (l : List α) (l' : List β) (hl : List.Forall₂ R l l') : List.Forall₂ R (l.take n) (l'.take n) := by
  induction hl generalizing n with
  | nil => simp
  | cons h1 _ ih =>
    cases n with
    | zero => exact .nil
    | succ n => exact .cons h1 (ih n)

theorem forall₂_drop {α β : Type} {R : α → β → Prop} (n : Nat) (l : List α) (l' : List β) (hl : List.Forall₂ R l l') : List.Forall₂ R (l.drop n) (l'.drop n) := by
  induction hl generalizing n with
  | nil => simp
  | cons h1 h2 ih =>
    cases n with
    | zero => exact .cons h1 h2
    | succ n => exact ih n

theorem fittestFirst_sim_of_order {α β F F' : Type} [LE F] [DecidableLE F] [LE F'] [DecidableLE F'] {R : α → β → Prop} (ka : α → F) (kb : β → F')
    (hk : ∀ a b a' b', R a b → R a' b' → (kb b ≤ kb b' ↔ ka a ≤ ka a')) (l : List α) (l' : List β) (hl : List.Forall₂ R l l') : ERel R (fittestFirst ka l) (fittestFirst kb l') := by
  unfold fittestFirst fittest
  have h := forall₂_take 1 _ _ (forall₂_sortedDesc_of_order ka kb hk l l' hl)
  revert h
  generalize (sortedDesc ka l).take 1 = a
  generalize (sortedDesc kb l').take 1 = b
  intro h
  cases h with
  | nil => exact .error _
  | cons h _ => exact .ok _ _ h

theorem fittestFirst_sim {α β F : Type} [LE F] [DecidableLE F] {R : α → β → Prop} (ka : α → F) (kb : β → F) (hk : ∀ a b, R a b → kb b = ka a) (l : List α) (l' : List β)
    (hl : List.Forall₂ R l l') : ERel R (fittestFirst ka l) (fittestFirst kb l') :=
  fittestFirst_sim_of_order ka kb (fun _ _ _ _ h h' => by rw [hk _ _ h, hk _ _ h']) l l' hl

/-! ## The evolution strategy -/

section ES

variable {A B Z Z' S F : Type} [LE F] [DecidableLE F] {R : A → B → Prop}

/-- Two evolution strategies whose operators do the same. -/
structure ESSim (R : A → B → Prop) (P : ESParams A Z S F) (Q : ESParams B Z' S F) (f : Z → Z') : Prop where
  operator : Q.operator = P.operator
  delay : Q.delay = P.delay
  child : ∀ a b z, R a b → ERel R (P.child a z) (Q.child b (f z))
  valid : ∀ a b, R a b → Q.valid b = P.valid a
  fitness : ∀ a b a' b', R a b → R a' b' → (Q.fitness b ≤ Q.fitness b' ↔ P.fitness a ≤ P.fitness a')
  select : ∀ l l' s, List.Forall₂ R l l' → ERel R (P.select l s) (Q.select l' s)

/-- Related ends of an iteration. -/
inductive GenRel (R : A → B → Prop) : GenOut A → GenOut B → Prop
  | stop (a : A) (b : B) (h : R a b) : GenRel R (.stop a) (.stop b)
  | next (a : A) (b : B) (w : List A) (w' : List B) (h : R a b) (hw : List.Forall₂ R w w') : GenRel R (.next a w) (.next b w')

theorem dequeAppend_sim (n : Nat) (w : List A) (w' : List B) (hw : List.Forall₂ R w w') (a : A) (b : B) (h : R a b) : List.Forall₂ R (dequeAppend n w a) (dequeAppend n w' b) := by
  unfold dequeAppend
  have h' := forall₂_append hw (.cons h .nil)
  rw [← h'.length_eq]
  exact forall₂_drop _ _ _ h'

theorem esGen_sim {P : ESParams A Z S F} {Q : ESParams B Z' S F} {f : Z → Z'} (hs : ESSim R P Q f) (zs : List Z) (s : S) (a : A) (b : B) (h : R a b) (w : List A) (w' : List B)
    (hw : List.Forall₂ R w w') : ERel (GenRel R) (esGen P zs s a w) (esGen Q (zs.map f) s b w') := by
  unfold esGen
  dsimp only
  rw [hs.operator, hs.delay]
  have hdq := dequeAppend_sim P.delay w w' hw a b h
  revert hdq
  generalize dequeAppend P.delay w a = v
  generalize dequeAppend P.delay w' b = v'
  intro hv
  have hc : ERel (List.Forall₂ R) (zs.mapM (P.child a)) ((zs.map f).mapM (Q.child b)) := by
    refine ERel.mapM (R := fun z z' => z' = f z) _ _ _ _ ?_ ?_
    · induction zs with
      | nil => exact .nil
      | cons z zs ih => exact .cons rfl ih
    · rintro z _ rfl; exact hs.child a b z h
  revert hc
  generalize zs.mapM (P.child a) = e
  generalize (zs.map f).mapM (Q.child b) = e'
  intro hc
  cases hc with
  | error e => exact .error e
  | ok cs cs' hcs =>
    dsimp only
    have hfil := forall₂_filter P.valid Q.valid hs.valid cs cs' hcs
    revert hfil
    generalize cs.filter P.valid = vs
    generalize cs'.filter Q.valid = vs'
    intro hvs
    have hemp : vs'.isEmpty = vs.isEmpty := by cases hvs <;> rfl
    rw [hemp]
    split
    · exact .ok _ _ (.next _ _ _ _ h hv)
    · have hsel := hs.select vs vs' s hvs
      have hsel' := hs.select (vs ++ [a]) (vs' ++ [b]) s (forall₂_append hvs (.cons h .nil))
      revert hsel hsel'
      generalize P.select vs s = x
      generalize Q.select vs' s = x'
      generalize P.select (vs ++ [a]) s = u
      generalize Q.select (vs' ++ [b]) s = u'
      intro hsel hsel'
      cases P.operator with
      | plus =>
        cases hsel' with
        | error e => exact .error e
        | ok n n' hn => exact .ok _ _ (.next _ _ _ _ hn hv)
      | comma =>
        cases hsel with
        | error e => exact .error e
        | ok n n' hn => exact .ok _ _ (.next _ _ _ _ hn hv)
      | amp =>
        cases hsel with
        | error e => exact .error e
        | ok n n' hn =>
          dsimp only
          rw [← hv.length_eq]
          split
          · cases hv with
            | nil => exact .error _
            | @cons e0 e0' t t' h0 ht =>
              dsimp only
              have hall : ((e0' :: t').all fun e => decide (Q.fitness e ≤ Q.fitness e0')) = ((e0 :: t).all fun e => decide (P.fitness e ≤ P.fitness e0)) := by
                have hgen : ∀ (u : List A) (u' : List B), List.Forall₂ R u u' →
                    (u'.all fun e => decide (Q.fitness e ≤ Q.fitness e0')) = (u.all fun e => decide (P.fitness e ≤ P.fitness e0)) := by
                  intro u u' hu
                  induction hu with
                  | nil => rfl
                  | cons h1 _ ih => simp only [List.all_cons, ih, hs.fitness _ _ _ _ h1 h0]
                exact hgen _ _ (.cons h0 ht)
              rw [hall]
              split
              · exact .ok _ _ (.stop _ _ h0)
              · exact .ok _ _ (.next _ _ _ _ hn (.cons h0 ht))
          · exact .ok _ _ (.next _ _ _ _ hn hv)
      | other => exact .ok _ _ (.next _ _ _ _ h hv)

theorem esLoop_sim {P : ESParams A Z S F} {Q : ESParams B Z' S F} {f : Z → Z'} (hs : ESSim R P Q f) (gens : List (List Z × S)) (a : A) (b : B) (h : R a b) (w : List A) (w' : List B)
    (hw : List.Forall₂ R w w') : ERel R (esLoop P gens a w) (esLoop Q (gens.map fun g => (g.1.map f, g.2)) b w') := by
  induction gens generalizing a b w w' with
  | nil => exact .ok _ _ h
  | cons g gs ih =>
    obtain ⟨zs, s⟩ := g
    rw [List.map_cons, esLoop, esLoop]
    have hg := esGen_sim hs zs s a b h w w' hw
    revert hg
    generalize esGen P zs s a w = x
    dsimp only
    generalize esGen Q (zs.map f) s b w' = x'
    intro hg
    cases hg with
    | error e => exact .error e
    | ok o o' ho =>
      cases ho with
      | stop a b h => exact .ok _ _ h
      | next a b w w' h hw => exact ih a b h w w' hw

theorem esOptimize_sim {P : ESParams A Z S F} {Q : ESParams B Z' S F} {f : Z → Z'} (hs : ESSim R P Q f) (gens : List (List Z × S)) (a : A) (b : B) (h : R a b) :
    ERel R (esOptimize P gens a) (esOptimize Q (gens.map fun g => (g.1.map f, g.2)) b) := esLoop_sim hs gens a b h [] [] .nil

theorem filterInvalid_sim (acc : A → Except PyErr Bool) (acc' : B → Except PyErr Bool) (h : ∀ a b, R a b → acc' b = acc a) (l : List (Option A)) (l' : List (Option B))
    (hl : List.Forall₂ (Option.Rel R) l l') : ERel (List.Forall₂ R) (filterInvalid acc l) (filterInvalid acc' l') := by
  induction hl with
  | nil => exact .ok _ _ .nil
  | cons h1 _ ih =>
    cases h1 with
    | none => exact ih
    | some h1 =>
      unfold filterInvalid
      rw [h _ _ h1]
      generalize acc _ = x
      cases x with
      | error e => exact .error e
      | ok v =>
        cases v with
        | false => exact ih
        | true =>
          dsimp only
          revert ih
          generalize filterInvalid acc _ = x
          generalize filterInvalid acc' _ = x'
          intro ih
          cases ih with
          | error e => exact .error e
          | ok l l' hl => exact .ok _ _ (.cons h1 hl)

theorem forall₂_zip {α β γ δ : Type} {R : α → β → Prop} {S : γ → δ → Prop} (l : List α) (l' : List β) (h : List.Forall₂ R l l') (m : List γ) (m' : List δ) (h' : List.Forall₂ S m m') :
    List.Forall₂ (fun p q => R p.1 q.1 ∧ S p.2 q.2) (l.zip m) (l'.zip m') := by
  induction h generalizing m m' with
  | nil => exact .nil
  | cons h1 _ ih =>
    cases h' with
    | nil => exact .nil
    | cons h2 h3 => exact .cons ⟨h1, h2⟩ (ih _ _ h3)

theorem forall₂_map_right {α β : Type} (f : α → β) (l : List α) : List.Forall₂ (fun a b => b = f a) l (l.map f) := by
  induction l with
  | nil => exact .nil
  | cons a l ih => exact .cons rfl ih

theorem discoverRules_sim {O O' T T' : Type} (init : O → Except PyErr A) (init' : O' → Except PyErr B) (o : O → O') (hinit : ∀ x, ERel R (init x) (init' (o x)))
    (opt : A → T → Except PyErr (Option A)) (opt' : B → T' → Except PyErr (Option B)) (t : T → T') (hopt : ∀ a b s, R a b → ERel (Option.Rel R) (opt a s) (opt' b (t s)))
    (acc : A → Except PyErr Bool) (acc' : B → Except PyErr Bool) (hacc : ∀ a b, R a b → acc' b = acc a) (os : List O) (ss : List T) :
    ERel (List.Forall₂ R) (discoverRules init opt acc os ss) (discoverRules init' opt' acc' (os.map o) (ss.map t)) := by
  unfold discoverRules
  have h1 := ERel.mapM (R := fun a b => b = o a) (S := R) init init' os (os.map o) (forall₂_map_right o os) (by rintro a _ rfl; exact hinit a)
  revert h1
  generalize os.mapM init = x
  generalize (os.map o).mapM init' = x'
  intro h1
  cases h1 with
  | error e => exact .error e
  | ok as bs hab =>
    dsimp only
    have h2 := ERel.mapM (S := Option.Rel R) (fun p => opt p.1 p.2) (fun p => opt' p.1 p.2) (as.zip ss) (bs.zip (ss.map t)) (forall₂_zip _ _ hab _ _ (forall₂_map_right t ss))
      (by rintro ⟨a, s⟩ ⟨b, s'⟩ ⟨h, rfl⟩; exact hopt a b s h)
    revert h2
    generalize (as.zip ss).mapM (fun p => opt p.1 p.2) = x
    generalize (bs.zip (ss.map t)).mapM (fun p => opt' p.1 p.2) = x'
    intro h2
    cases h2 with
    | error e => exact .error e
    | ok l l' hl => exact filterInvalid_sim acc acc' hacc l l' hl

end ES

/-! ## Rewriting the features -/

/-- How samples, bounds and the random numbers drawn per feature are rewritten. -/
structure Relabel (K : Type) (d : Nat) where
  pt : Point K d → Point K d
  pr : Pairs K d → Pairs K d
  noise : Pairs K d → Pairs K d

variable {K : Type} [Field K] [LinearOrder K] [IsStrictOrderedRing K] {d : Nat} {M : Type}

/-- Everything that depends on the features, for rules with ordered bounds, commutes with the rewriting; `r` and `r'` are the minimum ranges before and after. -/
structure Relabel.Lawful (T : Relabel K d) (r r' : K) : Prop where
  call : ∀ b x, OrderedBound.call (T.pr b) (T.pt x) = OrderedBound.call b x
  mean : ∀ x, meanInit .ordered (T.pt x) = T.pr (meanInit .ordered x)
  half : ∀ x h, halfnormInit .ordered (T.pt x) (T.noise h) = (halfnormInit .ordered x h).map T.pr
  mutate : ∀ m z b, mutate m .ordered (T.noise z) (T.pr b) = (mutate m .ordered z b).map T.pr
  constrain : ∀ fb b, constrain .ordered r' (T.pr fb) (T.pr b) = T.pr (constrain .ordered r fb b)
  estimate : ∀ X : List (Point K d), estimateBounds (X.map T.pt) = (estimateBounds X).map T.pr

/-- The training algorithm does not depend on the order or units of the features. -/
def Learner.Indifferent (L : Learner K d M) (T : Relabel K d) : Prop :=
  ∀ X y x, X ≠ [] → y.length = X.length → L.predict (L.fit (X.map T.pt) y) (T.pt x) = L.predict (L.fit X y) x

/-- The rule fitness does not depend on the order or units of the features. -/
def FitnessIndifferent (ff : RuleFitness K d) (T : Relabel K d) : Prop := ∀ e b sp, ff e .ordered (T.pr b) (T.pr sp) = ff e .ordered b sp

/-- The second rule is the first one for the rewritten features. -/
structure SameRule (L : Learner K d M) (T : Relabel K d) (ρ ρ' : Rule K d M) : Prop where
  kind : ρ.kind = .ordered
  kind' : ρ'.kind = .ordered
  bounds : ρ'.bounds = T.pr ρ.bounds
  space : ρ'.inputSpace = T.pr ρ.inputSpace
  st : ρ'.st = ρ.st
  model : Option.Rel (fun m m' => ∀ x, L.predict m' (T.pt x) = L.predict m x) ρ.model ρ'.model

section Sim

variable {L : Learner K d M} {T : Relabel K d} {r r' : K}

theorem SameRule.matchRows (hT : T.Lawful r r') {ρ ρ' : Rule K d M} (h : SameRule L T ρ ρ') (X : List (Point K d)) : ρ'.matchRows (X.map T.pt) = ρ.matchRows X := by
  unfold Rule.matchRows
  rw [List.map_map]
  apply List.map_congr_left
  intro x _
  simp only [Function.comp, h.kind, h.kind', h.bounds]
  exact hT.call _ _

theorem SameRule.refit (hL : L.Indifferent T) (ff : RuleFitness K d) (hff : FitnessIndifferent ff T) {ρ ρ' : Rule K d M} (h : SameRule L T ρ ρ')
    (X : List (Point K d)) (y : List K) (ms : List Bool) (hms : ms.length = X.length) (hne : compress X ms ≠ []) : ERel (SameRule L T) (ρ.refit L ff X y ms) (ρ'.refit L ff (X.map T.pt) y ms) := by
  unfold Rule.refit
  rw [List.length_map]
  split
  · exact .error _
  · rename_i hxy
    have hlen : (compress y ms).length = (compress X ms).length := by
      have hxy : y.length = X.length := by simpa using hxy
      rw [length_compress _ _ (by rw [hxy, hms]), length_compress _ _ hms.symm]
    dsimp only
    refine .ok _ _ ⟨h.kind, h.kind', h.bounds, h.space, ?_, .some fun x => ?_⟩
    · have hp : (compress (X.map T.pt) ms).map (L.predict (L.fit (compress (X.map T.pt) ms) (compress y ms))) =
          (compress X ms).map (L.predict (L.fit (compress X ms) (compress y ms))) := by
        rw [← compress_map, List.map_map]
        apply List.map_congr_left
        intro x _
        exact hL _ _ _ hne hlen
      have hl : (compress (X.map T.pt) ms).length = (compress X ms).length := by rw [← compress_map, List.length_map]
      dsimp only
      rw [hp, hl, h.kind, h.kind', h.bounds, h.space, hff]
    · rw [← compress_map]; exact hL _ _ _ hne hlen

theorem SameRule.fit (hT : T.Lawful r r') (hL : L.Indifferent T) (ff : RuleFitness K d) (hff : FitnessIndifferent ff T) {ρ ρ' : Rule K d M} (h : SameRule L T ρ ρ')
    (X : List (Point K d)) (y : List K) : ERel (SameRule L T) (ρ.fit L ff X y) (ρ'.fit L ff (X.map T.pt) y) := by
  unfold Rule.fit
  dsimp only
  rw [h.matchRows hT, h.st]
  split
  · exact .ok _ _ ⟨h.kind, h.kind', h.bounds, h.space, rfl, h.model⟩
  · rename_i hany
    have hms : (ρ.matchRows X).length = X.length := by unfold Rule.matchRows; rw [List.length_map]
    have hne : compress X (ρ.matchRows X) ≠ [] := by
      intro h0
      unfold Rule.matchRows at h0 hany
      rw [compress_map_self, List.filter_eq_nil_iff] at h0
      apply hany
      rw [List.any_map, List.any_eq_false]
      exact fun x hx => h0 x hx
    cases hst : ρ.st with
    | none => exact h.refit hL ff hff X y _ hms hne
    | some s =>
      dsimp only
      cases npEqAll s.matchSet (ρ.matchRows X) with
      | error e => exact .error e
      | ok v =>
        cases v with
        | true => exact .ok _ _ ⟨h.kind, h.kind', h.bounds, h.space, rfl, h.model⟩
        | false => exact h.refit hL ff hff X y _ hms hne

theorem childRule_sim (hT : T.Lawful r r') (hL : L.Indifferent T) (ff : RuleFitness K d) (hff : FitnessIndifferent ff T) (m : Mutation) (fb : Pairs K d) {ρ ρ' : Rule K d M}
    (h : SameRule L T ρ ρ') (X : List (Point K d)) (y : List K) (z : Pairs K d) :
    ERel (SameRule L T) (childRule L ff X y m r fb ρ z) (childRule L ff (X.map T.pt) y m r' (T.pr fb) ρ' (T.noise z)) := by
  unfold childRule childBounds
  rw [h.kind, h.kind', h.bounds, hT.mutate]
  cases Suprb.mutate m .ordered z ρ.bounds with
  | error e => exact .error e
  | ok b =>
    dsimp only [Except.map]
    rw [hT.constrain]
    exact SameRule.fit hT hL ff hff (ρ := { ρ.clone with bounds := constrain .ordered r fb b }) (ρ' := { ρ'.clone with bounds := T.pr (constrain .ordered r fb b) })
      ⟨h.kind, h.kind', rfl, h.space, rfl, .none⟩ X y

theorem initialRule_sim (hT : T.Lawful r r') (hL : L.Indifferent T) (ff : RuleFitness K d) (hff : FitnessIndifferent ff T) (fb sp : Pairs K d) (X : List (Point K d)) (y : List K)
    (o : Point K d) : ERel (SameRule L T) (initialRule L ff X y .ordered r fb sp o) (initialRule L ff (X.map T.pt) y .ordered r' (T.pr fb) (T.pr sp) (T.pt o)) := by
  unfold initialRule
  rw [hT.mean, hT.constrain]
  exact SameRule.fit hT hL ff hff (ρ := { kind := .ordered, bounds := constrain .ordered r fb (meanInit .ordered o), inputSpace := sp })
    (ρ' := { kind := .ordered, bounds := T.pr (constrain .ordered r fb (meanInit .ordered o)), inputSpace := T.pr sp }) ⟨rfl, rfl, rfl, rfl, rfl, .none⟩ X y

theorem SameRule.fitnessOf {ρ ρ' : Rule K d M} (h : SameRule L T ρ ρ') : ruleFitnessOf ρ' = ruleFitnessOf ρ := by
  unfold ruleFitnessOf; rw [h.st]

theorem concreteES_sim (hT : T.Lawful r r') (hL : L.Indifferent T) (ff : RuleFitness K d) (hff : FitnessIndifferent ff T) (X : List (Point K d)) (y : List K) (op : ESOperator)
    (delay : Nat) (m : Mutation) (fb : Pairs K d) :
    ESSim (SameRule L T) (concreteES L ff X y op delay m r fb) (concreteES L ff (X.map T.pt) y op delay m r' (T.pr fb)) T.noise where
  operator := rfl
  delay := rfl
  child := fun _ _ z h => childRule_sim hT hL ff hff m fb h X y z
  valid := fun a b h => by show validRule b = validRule a; unfold validRule; rw [h.st]
  fitness := fun _ _ _ _ h h' => by show ruleFitnessOf _ ≤ ruleFitnessOf _ ↔ ruleFitnessOf _ ≤ ruleFitnessOf _; rw [h.fitnessOf, h'.fitnessOf]
  select := fun l l' _ h => fittestFirst_sim _ _ (fun _ _ h => h.fitnessOf) l l' h

theorem acceptVariance_sim (beta : K) (y : List K) {ρ ρ' : Rule K d M} (h : SameRule L T ρ ρ') : acceptVariance beta y ρ' = acceptVariance beta y ρ := by
  unfold acceptVariance; rw [h.st]

theorem storedMatchSets_sim {pool pool' : List (Rule K d M)} (h : List.Forall₂ (SameRule L T) pool pool') : pool'.mapM Rule.storedMatchSet = pool.mapM Rule.storedMatchSet := by
  induction h with
  | nil => rfl
  | @cons a b _ _ h1 _ ih =>
    rw [List.mapM_cons, List.mapM_cons, ih]
    have : Rule.storedMatchSet b = Rule.storedMatchSet a := by unfold Rule.storedMatchSet; rw [h1.st]
    rw [this]

theorem subgroup_sim {pool pool' : List (Rule K d M)} (h : List.Forall₂ (SameRule L T) pool pool') (use : Bool) (el : Option (Indiv K)) :
    ERel (List.Forall₂ (SameRule L T)) (originSubgroup use pool (el.map fun σ => { genome := σ.genome, pool := pool, st := σ.st }))
      (originSubgroup use pool' (el.map fun σ => { genome := σ.genome, pool := pool', st := σ.st })) := by
  cases el with
  | none => exact .ok _ _ h
  | some σ =>
    unfold originSubgroup Solution.subpopulation
    dsimp only [Option.map]
    rw [← h.length_eq]
    split
    · split
      · exact .ok _ _ (forall₂_compress _ _ h _)
      · exact .error _
    · exact .ok _ _ h

theorem matchingProbabilities_sim {pool pool' : List (Rule K d M)} (h : List.Forall₂ (SameRule L T) pool pool') (use : Bool) (n : Nat) (el : Option (Indiv K)) :
    matchingProbabilities use n pool' (el.map fun σ => { genome := σ.genome, pool := pool', st := σ.st }) =
      matchingProbabilities use n pool (el.map fun σ => { genome := σ.genome, pool := pool, st := σ.st }) := by
  unfold matchingProbabilities
  have h1 := subgroup_sim h use el
  revert h1
  generalize originSubgroup use pool _ = x
  generalize originSubgroup use pool' _ = x'
  intro h1
  cases h1 with
  | error e => rfl
  | ok sub sub' hsub =>
    have hemp : sub'.isEmpty = sub.isEmpty := by cases hsub <;> rfl
    simp only [bind, Except.bind, hemp, storedMatchSets_sim hsub]

theorem takeRows_map {α β : Type} (f : α → β) (X : List α) (idx : List Nat) : takeRows (X.map f) idx = (takeRows X idx).map (List.map f) := by
  unfold takeRows
  induction idx with
  | nil => rfl
  | cons i is ih =>
    rw [List.mapM_cons, List.mapM_cons, ih, List.getElem?_map]
    cases X[i]? with
    | none => rfl
    | some x =>
      simp only [Option.map, bind, Except.bind]
      generalize (List.mapM (fun i => match X[i]? with
        | none => .error .indexError
        | some x => .ok x) is : Except PyErr (List α)) = z
      cases z <;> rfl

theorem matchingOrigins_sim {pool pool' : List (Rule K d M)} (h : List.Forall₂ (SameRule L T) pool pool') (use : Bool) (X : List (Point K d)) (el : Option (Indiv K)) (n : Nat)
    (draw : Option (List K) → List Nat) : matchingOrigins use (X.map T.pt) pool' el n draw = (matchingOrigins use X pool el n draw).map (List.map T.pt) := by
  unfold matchingOrigins
  rw [List.length_map, matchingProbabilities_sim h]
  generalize matchingProbabilities use X.length pool _ = x
  cases x with
  | error e => rfl
  | ok p =>
    dsimp only
    cases rngChoice X.length n p (draw p) with
    | error e => rfl
    | ok idx => exact takeRows_map _ _ _

theorem esDiscover_sim {cfg cfg' : ESCfg K} (hcfg : cfg' = { cfg with minRange := r' }) (hr : cfg.minRange = r) (hT : T.Lawful r r') (hL : L.Indifferent T) (ff : RuleFitness K d)
    (hff : FitnessIndifferent ff T) (draw : Option (List K) → List Nat) (children : Nat → Nat → Nat → Pairs K d) (el : Option (Indiv K)) {pool pool' : List (Rule K d M)}
    (h : List.Forall₂ (SameRule L T) pool pool') (X : List (Point K d)) (y : List K) (n : Nat) :
    ERel (List.Forall₂ (SameRule L T)) (esDiscover cfg L ff draw children el pool X y n)
      (esDiscover cfg' L ff draw (fun k g c => T.noise (children k g c)) el pool' (X.map T.pt) y n) := by
  subst hcfg hr
  unfold esDiscover
  rw [hT.estimate, matchingOrigins_sim h]
  cases estimateBounds X with
  | error e => exact .error e
  | ok fb =>
    rw [show (Except.map T.pr (Except.ok fb : Except PyErr (Pairs K d))) = .ok (T.pr fb) from rfl]
    cases matchingOrigins cfg.useElitist X pool el n draw with
    | error e => exact .error e
    | ok os =>
      rw [show (Except.map (List.map T.pt) (Except.ok os : Except PyErr (List (Point K d)))) = .ok (os.map T.pt) from rfl]
      have := discoverRules_sim (R := SameRule L T) (initialRule L ff X y .ordered cfg.minRange fb fb) (initialRule L ff (X.map T.pt) y .ordered r' (T.pr fb) (T.pr fb)) T.pt
        (initialRule_sim hT hL ff hff fb fb X y)
        (fun ρ gens => (esOptimize (concreteES L ff X y cfg.operator cfg.delay cfg.mutation cfg.minRange fb) gens ρ).map some)
        (fun ρ gens => (esOptimize (concreteES L ff (X.map T.pt) y cfg.operator cfg.delay cfg.mutation r' (T.pr fb)) gens ρ).map some)
        (fun gens => gens.map fun g => (g.1.map T.noise, g.2))
        (fun a b s hab => (esOptimize_sim (concreteES_sim hT hL ff hff X y cfg.operator cfg.delay cfg.mutation fb) s a b hab).map_some)
        (acceptVariance cfg.beta y) (acceptVariance cfg.beta y) (fun a b hab => acceptVariance_sim _ _ hab) os
        ((List.range n).map fun k => (List.range cfg.nIter).map fun g => ((List.range cfg.lmbda).map (children k g), ()))
      simpa [List.map_map, Function.comp_def] using this

/-! ## Predictions -/

theorem predict_rule_sim {ρ ρ' : Rule K d M} (h : SameRule L T ρ ρ') (X : List (Point K d)) : ρ'.predict L (X.map T.pt) = ρ.predict L X := by
  unfold Rule.predict
  have hm := h.model
  revert hm
  generalize ρ.model = a
  generalize ρ'.model = b
  intro hm
  cases hm with
  | none => rfl
  | some hm =>
    dsimp only
    rw [List.map_map]
    congr 1
    apply List.map_congr_left
    intro x _
    exact hm x

theorem localPred_sim (hT : T.Lawful r r') {ρ ρ' : Rule K d M} (h : SameRule L T ρ ρ') (cache : Bool) (X : List (Point K d)) :
    ρ'.localPred L cache (X.map T.pt) = ρ.localPred L cache X := by
  unfold Rule.localPred
  rw [h.st, List.length_map]
  dsimp only
  rw [h.matchRows hT, ← compress_map, predict_rule_sim h]

theorem tau_sim (P : MixParams K) {ρ ρ' : Rule K d M} (h : SameRule L T ρ ρ') : ρ'.tau P = ρ.tau P := by
  unfold Rule.tau; rw [h.st]

theorem mapM_sim {α β γ : Type} {R : α → β → Prop} (f : α → Except PyErr γ) (g : β → Except PyErr γ) (hfg : ∀ a b, R a b → g b = f a) {l : List α} {l' : List β} (h : List.Forall₂ R l l') :
    l'.mapM g = l.mapM f := by
  induction h with
  | nil => rfl
  | cons h1 _ ih => rw [List.mapM_cons, List.mapM_cons, ih, hfg _ _ h1]

theorem mixRules_sim (hT : T.Lawful r r') (P : MixParams K) (cache : Bool) (X : List (Point K d)) {sub sub' : List (Rule K d M)} (h : List.Forall₂ (SameRule L T) sub sub') :
    mixRules L P cache (X.map T.pt) sub' = mixRules L P cache X sub := by
  unfold mixRules
  rw [mapM_sim (Rule.localPred L cache X) (Rule.localPred L cache (X.map T.pt)) (fun _ _ h => localPred_sim hT h cache X) h, mapM_sim (Rule.tau P) (Rule.tau P) (fun _ _ h => tau_sim P h) h,
    List.length_map]

theorem mixing_sim (hT : T.Lawful r r') (P : MixParams K) (cache : Bool) (X : List (Point K d)) {sub sub' : List (Rule K d M)} (h : List.Forall₂ (SameRule L T) sub sub') :
    mixing L P filterAll cache (X.map T.pt) sub' = mixing L P filterAll cache X sub := by
  unfold mixing filterAll
  have hemp : sub'.isEmpty = sub.isEmpty := by cases h <;> rfl
  rw [hemp, List.length_map]
  dsimp only
  rw [mixRules_sim hT P cache X h]

theorem evalGenome_sim (hT : T.Lawful r r') (P : MixParams K) (sf : SolFitness K) (X : List (Point K d)) (y : List K) {pool pool' : List (Rule K d M)}
    (h : List.Forall₂ (SameRule L T) pool pool') : evalGenome L P filterAll sf (X.map T.pt) y pool' = evalGenome L P filterAll sf X y pool := by
  funext g
  unfold evalGenome Solution.fit Solution.predict Solution.subpopulation
  dsimp only
  rw [← h.length_eq]
  by_cases hg : g.length = pool.length
  · rw [if_pos hg, if_pos hg]
    dsimp only
    rw [mixing_sim hT P true X (forall₂_compress _ _ h g)]
    cases mixing L P filterAll true X (compress pool g) with
    | error e => rfl
    | ok p =>
      dsimp only
      by_cases hc : y.length ≠ p.length ∨ y.length = 0
      · rw [if_pos hc, if_pos hc]
      · rw [if_neg hc, if_neg hc]
  · rw [if_neg hg, if_neg hg]

end Sim

end Suprb
