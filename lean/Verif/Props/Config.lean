import Verif.Model.Config
import Verif.Lemmas.JsonRound
import Mathlib.Tactic.NormNum
import Mathlib.Tactic.FinCases

/-!
# Properties of the configuration of operators and components: C96, C97
-/

set_option autoImplicit false
set_option linter.unusedSectionVars false

namespace Suprb

open Spec

variable {K : Type} [Field K] [LinearOrder K] [IsStrictOrderedRing K] {d : Nat}

/-! ### C96 operators and matching types -/

/-- A `sigma` that scales draws of `m` numbers: one number, or `m` numbers. -/
def Sigma.Scales (σ : Sigma) (m : Nat) : Prop := σ = .scalar ∨ σ = .array 1 ∨ σ = .array m

/-- The initialisation can be used for interval bounds of `d` features. -/
def InitCfg.ForIntervals (i : InitCfg) (d : Nat) : Prop :=
  match i with
  | .mean => True
  | .normal σ => σ.Scales d
  | .halfnorm σ => σ.Scales d

/-- The initialisation can be used for a pair of different quantities per feature. -/
def InitCfg.ForPairs (i : InitCfg) : Prop := i = .mean ∨ ∃ n, 2 ≤ n ∧ i = .normal (.array n)

/-- Which configurations of initialisation and mutation can be used with the matching type, with `d` features. -/
def WorksWith (k : Kind) (i : InitCfg) (c : MutationCfg) (d : Nat) : Prop :=
  match k with
  | .ordered => i.ForIntervals d ∧ (c.range = true ∨ c.sigma.Scales (if c.m = .normal ∨ c.m = .uniform then 2 else d))
  | .unordered => i.ForIntervals d ∧ c.m ≠ .halfnormIncrease ∧ c.m ≠ .uniformIncrease ∧ (c.range = true ∨ c.sigma.Scales (if c.m = .normal ∨ c.m = .uniform then 2 else d))
  | _ => i.ForPairs ∧ c.m ≠ .halfnorm ∧ c.range = false ∧ c.sigma = .array 2

theorem broadcastTo_ok (σ : Sigma) (m : Nat) : broadcastTo σ m = .ok () ∨ broadcastTo σ m = .error .valueError := by
  unfold broadcastTo
  cases σ with
  | scalar => exact Or.inl rfl
  | array n => dsimp only; split_ifs <;> simp

theorem broadcastTo_iff (σ : Sigma) (m : Nat) : broadcastTo σ m = .ok () ↔ σ.Scales m := by
  unfold broadcastTo Sigma.Scales
  cases σ with
  | scalar => simp
  | array n => dsimp only; split_ifs with h <;> simp [h]

theorem bothEntries_iff (σ : Sigma) : bothEntries σ = .ok () ↔ ∃ n, 2 ≤ n ∧ σ = .array n := by
  unfold bothEntries
  cases σ with
  | scalar => simp
  | array n => dsimp only; split_ifs with h <;> simp [h]

theorem columns_two (z : Pairs K d) : columns 2 z = z := by
  funext i; simp [columns]

theorem bind_ok_iff {α : Type} (x : Except PyErr Unit) (y : Except PyErr α) (a : α) : (x.bind fun _ => y) = .ok a ↔ x = .ok () ∧ y = .ok a := by
  cases x with
  | error e => simp [Except.bind]
  | ok u => cases u; simp [Except.bind]

theorem initWith_iff (i : InitCfg) (k : Kind) (m : Point K d) (z : Pairs K d) :
    (∃ b, initWith i k m z = .ok b) ↔ match k with | .ordered => i.ForIntervals d | .unordered => i.ForIntervals d | _ => i.ForPairs := by
  cases i <;> cases k <;> simp [initWith, InitCfg.ForIntervals, InitCfg.ForPairs, bind_ok_iff, broadcastTo_iff, bothEntries_iff, halfnormInit]

theorem callMutation_iff (c : MutationCfg) (k : Kind) (z b : Pairs K d) (b' : Pairs K d) (hk : k = .ordered ∨ k = .unordered ∨ c.sigma = .array 2) :
    callMutation c ⟨some c.sigma, some k⟩ z b = .ok b' ↔ mutate c.m k z b = .ok b' ∧ WorksWith k .mean c d := by
  obtain ⟨m, σ, r⟩ := c
  cases m <;> cases k <;> cases r <;>
    simp [callMutation, OperatorObj.mutate, executeWith, bind_ok_iff, broadcastTo_iff, bothEntries_iff, WorksWith, InitCfg.ForIntervals, InitCfg.ForPairs, mutate, individualMutate] at hk ⊢ <;>
    first
    | exact and_comm
    | exact fun _ => Or.inl rfl
    | (subst hk; simp [columns_two])

/-- C96 (partial): exactly which configurations of the evolution strategy work. With the matching type `k`, an initialisation and a mutation, training produces a first child (for all draws) exactly
if `WorksWith` holds, and the child is the constrained result of the operators; otherwise `fit` raises an `AssertionError` (if the `sigma` of the mutation is not an array of two numbers for
the last two matching types) or ends with the error model. Missing: that all configurations work, which is false (`C96_refuted`). -/
theorem C96_exact_partial (k : Kind) (i : InitCfg) (c : MutationCfg) (r : K) (fb : Pairs K d) (m : Point K d) (zi zm : Pairs K d) :
    (WorksWith k i c d → ∃ b b', initWith i k m zi = .ok b ∧ mutate c.m k zm (constrain k r fb b) = .ok b' ∧ firstChild i c k r fb m zi zm = .child (constrain k r fb b')) ∧
    (¬ WorksWith k i c d →
      if (k = .centerSpread ∨ k = .minPercentage) ∧ c.sigma ≠ .array 2 then firstChild i c k r fb m zi zm = .raises .assertionError
      else ∃ e, firstChild i c k r fb m zi zm = .errorModel e) := by
  have hW : WorksWith k i c d ↔ (∃ b, initWith i k m zi = .ok b) ∧ WorksWith k .mean c d := by
    rw [initWith_iff]
    cases k <;> simp [WorksWith, InitCfg.ForIntervals, InitCfg.ForPairs]
  by_cases hσ : (k = .centerSpread ∨ k = .minPercentage) ∧ c.sigma ≠ .array 2
  · have hraise : firstChild i c k r fb m zi zm = .raises .assertionError := by
      obtain ⟨hk, hs⟩ := hσ
      obtain ⟨m', σ, rg⟩ := c
      unfold firstChild newMutation OperatorObj.setMatching
      rcases hk with rfl | rfl
      all_goals
        cases σ with
        | scalar => rfl
        | array n =>
          have : n ≠ 2 := fun h => hs (by rw [h])
          simp [this]
    rw [if_pos hσ]
    refine ⟨fun h => absurd ((hW.mp h).2) ?_, fun _ => hraise⟩
    obtain ⟨hk, hs⟩ := hσ
    rcases hk with rfl | rfl
    all_goals
      rintro ⟨_, _, _, h⟩
      exact hs h
  · have hk : k = .ordered ∨ k = .unordered ∨ c.sigma = .array 2 := by
      push Not at hσ
      cases k
      · exact Or.inl rfl
      · exact Or.inr (Or.inl rfl)
      · exact Or.inr (Or.inr (hσ (Or.inl rfl)))
      · exact Or.inr (Or.inr (hσ (Or.inr rfl)))
    rw [if_neg hσ]
    have hset : ({ sigma := some c.sigma } : OperatorObj).setMatching (some k) = .ok ⟨some c.sigma, some k⟩ := by
      unfold OperatorObj.setMatching
      rcases hk with rfl | rfl | hk
      · rfl
      · rfl
      · rw [hk]; cases k <;> rfl
    have hfc : firstChild i c k r fb m zi zm =
        match initWith i k m zi with
        | .error e => .errorModel e
        | .ok b => match callMutation c ⟨some c.sigma, some k⟩ zm (constrain k r fb b) with
          | .error e => .errorModel e
          | .ok b' => .child (constrain k r fb b') := by
      unfold firstChild
      rw [show newMutation none c.sigma = .ok { sigma := some c.sigma } from rfl]
      dsimp only
      rw [hset]
      rfl
    rw [hfc]
    refine ⟨fun h => ?_, fun h => ?_⟩
    · obtain ⟨⟨b, hb⟩, hm⟩ := hW.mp h
      have hmut : ∃ b', mutate c.m k zm (constrain k r fb b) = .ok b' := by
        obtain ⟨m', σ, rg⟩ := c
        cases m' <;> cases k <;> simp [WorksWith] at hm <;> exact ⟨_, rfl⟩
      obtain ⟨b', hb'⟩ := hmut
      refine ⟨b, b', hb, hb', ?_⟩
      rw [hb]
      dsimp only
      rw [(callMutation_iff c k zm _ b' hk).mpr ⟨hb', hm⟩]
    · cases hb : initWith i k m zi with
      | error e => exact ⟨e, rfl⟩
      | ok b =>
        dsimp only
        cases hc : callMutation c ⟨some c.sigma, some k⟩ zm (constrain k r fb b) with
        | error e => exact ⟨e, rfl⟩
        | ok b' => exact absurd (hW.mpr ⟨⟨b, hb⟩, ((callMutation_iff c k zm _ b' hk).mp hc).2⟩) h

/-- C96 is false. For every `sigma`: `Halfnorm`, `SigmaRange` and the half-normal initialisation do not work with the last two matching types, the increasing mutations do not work with unordered
bounds (nor does, therefore, the default mutation), and no mutation or crossover can be constructed with one of the last two matching types. -/
theorem C96_refuted (σ σ' : Sigma) (i : InitCfg) (m : Mutation) :
    (∀ k, k = Kind.centerSpread ∨ k = .minPercentage →
      ¬ WorksWith k i ⟨.halfnorm, σ, false⟩ d ∧ ¬ WorksWith k i ⟨m, σ, true⟩ d ∧ ¬ WorksWith k (.halfnorm σ') ⟨m, σ, false⟩ d ∧
      newMutation (some k) σ = .error .attributeError ∧ newCrossover (some k) = .error .attributeError ∧ ¬ WorksWith k i ⟨m, .scalar, false⟩ d) ∧
    ¬ WorksWith .unordered i ⟨.halfnormIncrease, σ, false⟩ d ∧ ¬ WorksWith .unordered i ⟨.uniformIncrease, σ, false⟩ d := by
  refine ⟨?_, by simp [WorksWith], by simp [WorksWith]⟩
  rintro k (rfl | rfl) <;> exact ⟨by simp [WorksWith], by simp [WorksWith], by simp [WorksWith, InitCfg.ForPairs], rfl, rfl, by simp [WorksWith]⟩

/-- C96 is false for the default components (`MeanInit`, `HalfnormIncrease(sigma=1.22)`): with unordered bounds `fit` ends with the error model, with the last two matching types it raises. -/
theorem C96_refuted_default (r : K) (fb : Pairs K d) (m : Point K d) (zi zm : Pairs K d) :
    firstChild .mean ⟨.halfnormIncrease, .scalar, false⟩ .unordered r fb m zi zm = .errorModel .typeError ∧
    firstChild .mean ⟨.halfnormIncrease, .scalar, false⟩ .centerSpread r fb m zi zm = .raises .assertionError ∧
    firstChild .mean ⟨.halfnormIncrease, .scalar, false⟩ .minPercentage r fb m zi zm = .raises .assertionError := ⟨rfl, rfl, rfl⟩

/-- C96: with interval bounds a single number as `sigma` always works, except for the increasing mutations with unordered bounds; with the other two matching types two numbers work for all mutations
but `Halfnorm`, with `MeanInit` or `NormalInit`. -/
theorem C96_documented_partial (m : Mutation) (i : InitCfg) (rg : Bool) :
    ((i = .mean ∨ i = .normal .scalar ∨ i = .halfnorm .scalar) → WorksWith .ordered i ⟨m, .scalar, rg⟩ d ∧ (m ≠ .halfnormIncrease → m ≠ .uniformIncrease → WorksWith .unordered i ⟨m, .scalar, rg⟩ d)) ∧
    ((i = .mean ∨ i = .normal (.array 2)) → m ≠ .halfnorm → WorksWith .centerSpread i ⟨m, .array 2, false⟩ d ∧ WorksWith .minPercentage i ⟨m, .array 2, false⟩ d) := by
  refine ⟨?_, ?_⟩
  · rintro (rfl | rfl | rfl) <;> exact ⟨⟨by simp [InitCfg.ForIntervals, Sigma.Scales], Or.inr (Or.inl rfl)⟩, fun h1 h2 => ⟨by simp [InitCfg.ForIntervals, Sigma.Scales], h1, h2, Or.inr (Or.inl rfl)⟩⟩
  · rintro (rfl | rfl) hm <;> exact ⟨⟨by simp [InitCfg.ForPairs], hm, rfl, rfl⟩, ⟨by simp [InitCfg.ForPairs], hm, rfl, rfl⟩⟩

/-- C96: a mutation that never got a matching type returns an unchanged copy. -/
theorem C96_refuted_unconfigured (m : Mutation) (σ : Sigma) (z b : Pairs K d) : ∃ o, newMutation none σ = .ok o ∧ o.mutate m z b = .ok b := ⟨_, rfl, rfl⟩

example : WorksWith .minPercentage (.normal (.array 2)) ⟨.uniformIncrease, .array 2, false⟩ 3 ∧ ¬ WorksWith .minPercentage (.normal .scalar) ⟨.uniformIncrease, .array 2, false⟩ 3 := by
  simp [WorksWith, InitCfg.ForPairs]

/-! ### C97 bounds and matching types -/

namespace Json

/-- The name contains `matching_type`. -/
def NamesMatching (n : Str) : Prop := "matching_type".toList <:+: n
/-- The name ends with `bounds`. -/
def NamesBounds (n : Str) : Prop := "bounds".toList <:+ n

open Classical in
mutual
/-- What the parameters of a component should be after configuration: every parameter (at any depth) named as a matching type is `m`, every unset one (`None`) named as bounds is `b`, all others are
as they were. -/
noncomputable def Val.filled : Val → (b m : Val) → Val
  | .obj true c ps, b, m => .obj true c (ps.filled b m)
  | .obj false c ps, _, _ => .obj false c ps
  | .num q, _, _ => .num q
  | .str s, _, _ => .str s
  | .none, _, _ => .none
  | .array a, _, _ => .array a
noncomputable def Params.filled : Params → (b m : Val) → Params
  | .nil, _, _ => .nil
  | .cons n v rest, b, m => .cons n (if NamesMatching n then m else if NamesBounds n ∧ v = .none then b else v.filled b m) (rest.filled b m)
end

mutual
/-- No component has two parameters of one name. -/
def Val.NamesNodup : Val → Prop
  | .obj true _ ps => (ps.toList.map Prod.fst).Nodup ∧ ps.NamesNodup
  | .obj false _ _ => True
  | .num _ => True
  | .str _ => True
  | .none => True
  | .array _ => True
def Params.NamesNodup : Params → Prop
  | .nil => True
  | .cons _ v rest => v.NamesNodup ∧ rest.NamesNodup
end

mutual
/-- Replace all parameters selected by `sel` by `w`. -/
def Val.repl : Val → (List Str → Val → Bool) → Val → Val
  | .obj true c ps, sel, w => .obj true c (ps.repl sel w)
  | .obj false c ps, _, _ => .obj false c ps
  | .num q, _, _ => .num q
  | .str s, _, _ => .str s
  | .none, _, _ => .none
  | .array a, _, _ => .array a
def Params.repl : Params → (List Str → Val → Bool) → Val → Params
  | .nil, _, _ => .nil
  | .cons n v rest, sel, w => .cons n (if sel [n] v then w else v.repl (fun p => sel (n :: p)) w) (rest.repl sel w)
end

/-- One pass over the parameters. -/
def writeStep (sel : List Str → Val → Bool) (w : Val) (v : Val) (e : List Str × Val) : Except PyErr Val := if sel e.1 e.2 then setParam e.1 w v else .ok v

theorem ofList_toList (ps : Params) : Params.ofList ps.toList = ps := by
  match ps with
  | .nil => rfl
  | .cons n v rest => rw [Params.toList, Params.ofList, ofList_toList rest]

theorem get_mid (pre : List (Str × Val)) (n : Str) (u : Val) (post : List (Str × Val)) (h : n ∉ pre.map Prod.fst) : Dict.get (pre ++ (n, u) :: post) n = some u := by
  induction pre with
  | nil => simp [Dict.get]
  | cons x xs ih =>
    simp only [List.map_cons, List.mem_cons, not_or] at h
    rw [List.cons_append]
    unfold Dict.get
    rw [if_neg fun h' => h.1 h'.symm]
    exact ih h.2

theorem set_mid (pre : List (Str × Val)) (n : Str) (u w : Val) (post : List (Str × Val)) (h : n ∉ pre.map Prod.fst) :
    Dict.set (pre ++ (n, u) :: post) n w = pre ++ (n, w) :: post := by
  induction pre with
  | nil => simp [Dict.set]
  | cons x xs ih =>
    simp only [List.map_cons, List.mem_cons, not_or] at h
    rw [List.cons_append]
    conv_lhs => unfold Dict.set
    rw [if_neg fun h' => h.1 h'.symm, ih h.2]
    rfl

mutual
theorem Val.deep_ne_nil (v : Val) : ∀ e ∈ v.deep, e.1 ≠ [] := by
  match v with
  | .obj true _ ps => rw [Val.deep]; exact Params.deep_ne_nil ps
  | .obj false _ _ => simp [Val.deep]
  | .num _ => simp [Val.deep]
  | .str _ => simp [Val.deep]
  | .none => simp [Val.deep]
  | .array _ => simp [Val.deep]
theorem Params.deep_ne_nil (ps : Params) : ∀ e ∈ ps.deep, e.1 ≠ [] := by
  match ps with
  | .nil => simp [Params.deep]
  | .cons n v rest =>
    intro e he
    rw [Params.deep, List.mem_append, List.mem_cons] at he
    rcases he with he | he | he
    · obtain ⟨x, _, rfl⟩ := List.mem_map.mp he
      simp
    · rw [he]; simp
    · exact Params.deep_ne_nil rest e he
end

theorem write_lift (sel : List Str → Val → Bool) (w : Val) (c n : Str) (pre post : List (Str × Val)) (h : n ∉ pre.map Prod.fst) (L : List (List Str × Val)) (hL : ∀ e ∈ L, e.1 ≠ []) (u u' : Val)
    (hu : L.foldlM (writeStep (fun p => sel (n :: p)) w) u = .ok u') :
    (L.map fun e => (n :: e.1, e.2)).foldlM (writeStep sel w) (.obj true c (.ofList (pre ++ (n, u) :: post))) = .ok (.obj true c (.ofList (pre ++ (n, u') :: post))) := by
  induction L generalizing u with
  | nil =>
    cases hu
    rfl
  | cons e rest ih =>
    obtain ⟨q, x⟩ := e
    have hq : q ≠ [] := hL _ (List.mem_cons_self ..)
    rw [List.foldlM_cons] at hu
    rw [List.map_cons, List.foldlM_cons]
    cases h1 : writeStep (fun p => sel (n :: p)) w u (q, x) with
    | error e' => rw [h1] at hu; cases hu
    | ok u1 =>
      rw [h1] at hu
      have hstep : writeStep sel w (.obj true c (.ofList (pre ++ (n, u) :: post))) (n :: q, x) = .ok (.obj true c (.ofList (pre ++ (n, u1) :: post))) := by
        unfold writeStep at h1 ⊢
        dsimp only at h1 ⊢
        split_ifs at h1 ⊢ with hs
        · obtain ⟨r, rs, rfl⟩ := List.exists_cons_of_ne_nil hq
          unfold setParam
          rw [Params.toList_ofList, get_mid _ _ _ _ h]
          dsimp only
          rw [h1]
          dsimp only
          rw [set_mid _ _ _ _ _ h]
        · cases h1; rfl
      rw [hstep]
      exact ih (fun e he => hL e (List.mem_cons_of_mem _ he)) u1 hu

mutual
theorem Val.write_eq (sel : List Str → Val → Bool) (w v : Val) (hv : v.NamesNodup) : v.deep.foldlM (writeStep sel w) v = .ok (v.repl sel w) := by
  match v with
  | .obj true c ps =>
    rw [Val.deep, Val.repl]
    have := Params.write_eq sel w ps c [] (by simpa [Val.NamesNodup] using hv.1) hv.2
    simpa [ofList_toList] using this
  | .obj false _ _ => rfl
  | .num _ => rfl
  | .str _ => rfl
  | .none => rfl
  | .array _ => rfl
theorem Params.write_eq (sel : List Str → Val → Bool) (w : Val) (ps : Params) (c : Str) (pre : List (Str × Val)) (hn : ((pre ++ ps.toList).map Prod.fst).Nodup) (hp : ps.NamesNodup) :
    ps.deep.foldlM (writeStep sel w) (.obj true c (.ofList (pre ++ ps.toList))) = .ok (.obj true c (.ofList (pre ++ (ps.repl sel w).toList))) := by
  match ps with
  | .nil => rfl
  | .cons n v rest =>
    have hnp : n ∉ pre.map Prod.fst := by
      rw [List.map_append, Params.toList, List.map_cons] at hn
      exact fun h => (List.disjoint_of_nodup_append hn) h (List.mem_cons_self ..)
    rw [Params.deep, Params.toList, List.foldlM_append, write_lift sel w c n pre rest.toList hnp v.deep v.deep_ne_nil v _ (Val.write_eq (fun p => sel (n :: p)) w v hp.1)]
    show (([n], v) :: rest.deep).foldlM (writeStep sel w) _ = _
    rw [List.foldlM_cons]
    have hstep : writeStep sel w (.obj true c (.ofList (pre ++ (n, v.repl (fun p => sel (n :: p)) w) :: rest.toList))) ([n], v) =
        .ok (.obj true c (.ofList (pre ++ (n, if sel [n] v then w else v.repl (fun p => sel (n :: p)) w) :: rest.toList))) := by
      unfold writeStep
      dsimp only
      split_ifs with hs
      · unfold setParam
        rw [Params.toList_ofList, get_mid _ _ _ _ hnp]
        dsimp only
        rw [set_mid _ _ _ _ _ hnp]
      · rfl
    rw [hstep]
    have := Params.write_eq sel w rest c (pre ++ [(n, if sel [n] v then w else v.repl (fun p => sel (n :: p)) w)]) (by simpa [Params.toList] using hn) hp.2
    rw [List.append_assoc, List.append_assoc] at this
    rw [Params.repl, Params.toList]
    exact this
end

/-! #### Names in joined keys -/

theorem hasInfix_iff (w s : Str) : hasInfix w s = true ↔ w <:+: s := by
  induction s with
  | nil => simp [hasInfix]
  | cons c s ih => rw [hasInfix, Bool.or_eq_true, ih, List.isPrefixOf_iff_prefix, List.infix_cons_iff]

theorem infix_join (w a r : Str) (hne : w ≠ []) (hsep : ∀ x y, w ≠ x ++ '_' :: '_' :: y) (hh : ∀ y, w ≠ '_' :: y) (hl : ∀ x, w ≠ x ++ ['_']) :
    w <:+: a ++ '_' :: '_' :: r ↔ w <:+: a ∨ w <:+: r := by
  constructor
  · rintro ⟨s, t, h⟩
    rw [List.append_assoc, List.append_eq_append_iff] at h
    rcases h with ⟨a', ha, h⟩ | ⟨c, hs, h⟩
    · rw [List.append_eq_append_iff] at h
      rcases h with ⟨u, hu, h⟩ | ⟨u, hu, h⟩
      · exact Or.inl ⟨s, u, by rw [ha, hu, List.append_assoc]⟩
      · match u, h with
        | [], _ => exact Or.inl ⟨s, [], by rw [ha, hu]; simp⟩
        | [x], h =>
          simp only [List.cons_append, List.nil_append, List.cons.injEq] at h
          exact absurd (by rw [hu, ← h.1]) (hl a')
        | x :: y :: u', h =>
          simp only [List.cons_append, List.cons.injEq] at h
          exact absurd (by rw [hu, ← h.1, ← h.2.1]) (hsep a' u')
    · match c, h with
      | [], h =>
        obtain ⟨x, w', rfl⟩ := List.exists_cons_of_ne_nil hne
        simp only [List.nil_append, List.cons_append, List.cons.injEq] at h
        exact absurd (by rw [← h.1]) (hh w')
      | [y], h =>
        obtain ⟨x, w', rfl⟩ := List.exists_cons_of_ne_nil hne
        simp only [List.nil_append, List.cons_append, List.cons.injEq] at h
        exact absurd (by rw [← h.2.1]) (hh w')
      | y :: z :: c', h =>
        simp only [List.cons_append, List.cons.injEq] at h
        exact Or.inr ⟨c', t, by rw [h.2.2, List.append_assoc]⟩
  · rintro (⟨s, t, h⟩ | ⟨s, t, h⟩)
    · exact ⟨s, t ++ '_' :: '_' :: r, by rw [← h]; simp⟩
    · exact ⟨a ++ '_' :: '_' :: s, t, by rw [← h]; simp⟩

theorem matching_ends : matchingTypeStr.head? = some 'm' ∧ matchingTypeStr.getLast? = some 'e' := by decide

theorem namesMatching_iff (n : Str) : NamesMatching n ↔ matchingTypeStr <:+: n := Iff.rfl

theorem matching_ok : matchingTypeStr ≠ [] ∧ (∀ x y, matchingTypeStr ≠ x ++ '_' :: '_' :: y) ∧ (∀ y, matchingTypeStr ≠ '_' :: y) ∧ ∀ x, matchingTypeStr ≠ x ++ ['_'] := by
  refine ⟨by decide, ?_, ?_, ?_⟩
  · intro x y h
    have h1 : hasSep matchingTypeStr = false := by decide
    have h2 : hasSep (x ++ ('_' :: '_' :: y)) = true := hasSep_append_left _ _ (by simp [hasSep])
    rw [h, h2] at h1
    cases h1
  · intro y h
    have := congrArg List.head? h
    rw [matching_ends.1, List.head?_cons, Option.some.injEq] at this
    exact absurd this (by decide)
  · intro x h
    have := congrArg List.getLast? h
    rw [matching_ends.2, List.getLast?_concat, Option.some.injEq] at this
    exact absurd this (by decide)

theorem infix_joinSep (p : List Str) : hasInfix matchingTypeStr (joinSep p) = true ↔ ∃ n ∈ p, NamesMatching n := by
  rw [hasInfix_iff]
  obtain ⟨h0, h1, h2, h3⟩ := matching_ok
  induction p with
  | nil => simp [joinSep, h0]
  | cons n rest ih =>
    cases rest with
    | nil =>
      rw [joinSep, ← namesMatching_iff]
      simp only [List.mem_singleton, exists_eq_left]
    | cons q rest =>
      rw [joinSep, infix_join _ _ _ h0 h1 h2 h3, ih, ← namesMatching_iff, List.exists_mem_cons_iff, List.exists_mem_cons_iff, List.exists_mem_cons_iff]

theorem suffix_join (w a r : Str) (hw : '_' ∉ w) : w <:+ a ++ '_' :: '_' :: r ↔ w <:+ r := by
  constructor
  · rintro ⟨s, h⟩
    rw [List.append_eq_append_iff] at h
    rcases h with ⟨a', _, h⟩ | ⟨c, _, h⟩
    · exact absurd (by rw [h]; simp) hw
    · match c, h with
      | [], h => exact absurd (by rw [show w = '_' :: '_' :: r from h.symm]; simp) hw
      | [y], h =>
        simp only [List.nil_append, List.cons_append, List.cons.injEq] at h
        exact absurd (by rw [← h.2]; simp) hw
      | y :: z :: c', h =>
        simp only [List.cons_append, List.cons.injEq] at h
        exact ⟨c', h.2.2.symm⟩
  · rintro ⟨s, h⟩
    exact ⟨a ++ '_' :: '_' :: s, by rw [← h]; simp⟩

theorem suffix_joinSep (p : List Str) (n : Str) : boundsStr.isSuffixOf (joinSep (p ++ [n])) = true ↔ NamesBounds n := by
  rw [List.isSuffixOf_iff_suffix]
  cases p with
  | nil => simp [joinSep, NamesBounds, boundsStr]
  | cons q rest => rw [joinSep_concat _ _ (by simp), suffix_join _ _ _ (by decide)]; rfl

/-! #### The result of the configuration -/

def selB (p : List Str) (x : Val) : Bool := boundsStr.isSuffixOf (joinSep p) && decide (x = .none)
def selM (p : List Str) (_ : Val) : Bool := hasInfix matchingTypeStr (joinSep p)

mutual
theorem Val.repl_filled (a : Nat) (m v : Val) (p : List Str) (hp : ∀ n ∈ p, ¬ NamesMatching n) :
    (v.repl (fun q => selB (p ++ q)) (.array a)).repl (fun q => selM (p ++ q)) m = v.filled (.array a) m := by
  match v with
  | .obj true c ps => rw [Val.repl, Val.repl, Val.filled, Params.repl_filled a m ps p hp]
  | .obj false _ _ => rw [Val.repl, Val.repl, Val.filled]
  | .num _ => rw [Val.repl, Val.repl, Val.filled]
  | .str _ => rw [Val.repl, Val.repl, Val.filled]
  | .none => rw [Val.repl, Val.repl, Val.filled]
  | .array _ => rw [Val.repl, Val.repl, Val.filled]
theorem Params.repl_filled (a : Nat) (m : Val) (ps : Params) (p : List Str) (hp : ∀ n ∈ p, ¬ NamesMatching n) :
    (ps.repl (fun q => selB (p ++ q)) (.array a)).repl (fun q => selM (p ++ q)) m = ps.filled (.array a) m := by
  match ps with
  | .nil => rw [Params.repl, Params.repl, Params.filled]
  | .cons n v rest =>
    rw [Params.repl, Params.repl, Params.filled, Params.repl_filled a m rest p hp]
    congr 1
    have hM : selM (p ++ [n]) (if selB (p ++ [n]) v = true then Val.array a else v.repl (fun q => selB (p ++ n :: q)) (Val.array a)) = true ↔ NamesMatching n := by
      unfold selM
      rw [infix_joinSep]
      constructor
      · rintro ⟨x, hx, h⟩
        rcases List.mem_append.mp hx with hx | hx
        · exact absurd h (hp x hx)
        · rwa [List.mem_singleton.mp hx] at h
      · exact fun h => ⟨n, by simp, h⟩
    have hB : selB (p ++ [n]) v = true ↔ NamesBounds n ∧ v = .none := by
      unfold selB
      rw [Bool.and_eq_true, suffix_joinSep, decide_eq_true_eq]
    by_cases h1 : NamesMatching n
    · rw [if_pos (hM.mpr h1), if_pos h1]
    · rw [if_neg fun h => h1 (hM.mp h), if_neg h1]
      by_cases h2 : NamesBounds n ∧ v = .none
      · rw [if_pos (hB.mpr h2), if_pos h2, Val.repl]
      · rw [if_neg fun h => h2 (hB.mp h), if_neg h2]
        have := Val.repl_filled a m v (p ++ [n]) (by
          intro x hx
          rcases List.mem_append.mp hx with hx | hx
          · exact hp x hx
          · rw [List.mem_singleton.mp hx]; exact h1)
        simpa only [List.append_assoc, List.singleton_append] using this
end

mutual
theorem Val.repl_nodup (sel : List Str → Val → Bool) (a : Nat) (v : Val) (h : v.NamesNodup) : (v.repl sel (.array a)).NamesNodup := by
  match v with
  | .obj true c ps => rw [Val.repl]; exact ⟨by rw [Params.names_repl]; exact h.1, Params.repl_nodup sel a ps h.2⟩
  | .obj false _ _ => rw [Val.repl]; exact h
  | .num _ => rw [Val.repl]; exact h
  | .str _ => rw [Val.repl]; exact h
  | .none => rw [Val.repl]; exact h
  | .array _ => rw [Val.repl]; exact h
theorem Params.repl_nodup (sel : List Str → Val → Bool) (a : Nat) (ps : Params) (h : ps.NamesNodup) : (ps.repl sel (.array a)).NamesNodup := by
  match ps with
  | .nil => rw [Params.repl]; exact h
  | .cons n v rest =>
    rw [Params.repl]
    refine ⟨?_, Params.repl_nodup sel a rest h.2⟩
    split_ifs
    · exact trivial
    · exact Val.repl_nodup _ a v h.1
theorem Params.names_repl (sel : List Str → Val → Bool) (w : Val) (ps : Params) : (ps.repl sel w).toList.map Prod.fst = ps.toList.map Prod.fst := by
  match ps with
  | .nil => rw [Params.repl]
  | .cons n v rest => rw [Params.repl, Params.toList, Params.toList, List.map_cons, List.map_cons, Params.names_repl sel w rest]
end

/-- C97: configuring the rule discovery for a fit succeeds and gives every parameter of it and of its parts the documented value: matching types are those of the model, whatever was set; unset bounds are
the bounds of the data; everything else is as the user set it. -/
theorem C97_configured (a : Nat) (m v : Val) (hv : v.NamesNodup) : configureDiscovery (.array a) m v = .ok (v.filled (.array a) m) := by
  unfold configureDiscovery
  have h1 : initBounds (.array a) v = .ok (v.repl selB (.array a)) := Val.write_eq selB (.array a) v hv
  rw [h1]
  have h2 : initMatchingType m (v.repl selB (.array a)) = .ok ((v.repl selB (.array a)).repl selM m) := Val.write_eq selM m _ (Val.repl_nodup _ _ _ hv)
  dsimp only
  rw [h2]
  exact congrArg Except.ok (Val.repl_filled a m v [] (by simp))

/-- Example: an evolution strategy whose initialisation has unset bounds and an own matching type (with bounds of its own), and whose constraint has bounds set by the user. -/
example : configureDiscovery (.array 7) (.obj true "OrderedBound".toList (.cons "bounds".toList (.array 0) .nil))
    (.obj true "ES1xLambda".toList (.cons "constraint".toList (.obj true "Clip".toList (.cons "bounds".toList (.array 5) .nil)) (.cons "init".toList
      (.obj true "MeanInit".toList (.cons "bounds".toList .none (.cons "matching_type".toList (.obj true "CenterSpread".toList (.cons "bounds".toList .none .nil)) .nil))) .nil))) =
    .ok (.obj true "ES1xLambda".toList (.cons "constraint".toList (.obj true "Clip".toList (.cons "bounds".toList (.array 5) .nil)) (.cons "init".toList
      (.obj true "MeanInit".toList (.cons "bounds".toList (.array 7) (.cons "matching_type".toList (.obj true "OrderedBound".toList (.cons "bounds".toList (.array 0) .nil)) .nil))) .nil))) := by
  decide +kernel

end Json

end Suprb
