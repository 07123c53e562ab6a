import Verif.Model.ESWarnings
import Verif.Props.ES

/-!
# Claim C186: a generation without usable children is announced and changes nothing
-/

set_option autoImplicit false
set_option linter.unusedSectionVars false

namespace Suprb

open Spec

section Generic

variable {R Z S F : Type} [LinearOrder F]

/-- The children of a generation are all made without an exception, and none is usable. -/
def ESParams.NoneUsable (P : ESParams R Z S F) (zs : List Z) (e : R) : Prop :=
  ∀ z ∈ zs, ∃ c, P.child e z = .ok c ∧ P.valid c = false

theorem esGenWarns_iff (P : ESParams R Z S F) (zs : List Z) (e : R) : esGenWarns P zs e = true ↔ P.NoneUsable zs e := by
  have key : ∀ zs : List Z, ((∃ cs, zs.mapM (P.child e) = .ok cs ∧ cs.filter P.valid = []) ↔ P.NoneUsable zs e) := by
    intro zs
    induction zs with
    | nil =>
      refine ⟨fun _ z hz => ?_, fun _ => ⟨[], rfl, rfl⟩⟩
      cases hz
    | cons z zs ih =>
      constructor
      · rintro ⟨cs, h1, h2⟩
        rw [List.mapM_cons] at h1
        cases hc : P.child e z with
        | error er => rw [hc] at h1; cases h1
        | ok c =>
          rw [hc] at h1
          cases hcs : zs.mapM (P.child e) with
          | error er => rw [hcs] at h1; cases h1
          | ok cs' =>
            rw [hcs] at h1
            cases h1
            have hv : P.valid c = false := by
              cases hv : P.valid c with
              | false => rfl
              | true => rw [List.filter_cons_of_pos hv] at h2; cases h2
            rw [List.filter_cons_of_neg (by rw [hv]; decide)] at h2
            intro z' hz'
            rcases List.mem_cons.mp hz' with h | h
            · rw [h]; exact ⟨c, hc, hv⟩
            · exact ih.mp ⟨cs', hcs, h2⟩ z' h
      · intro h
        obtain ⟨c, hc, hv⟩ := h z List.mem_cons_self
        obtain ⟨cs, h1, h2⟩ := ih.mpr fun z' hz' => h z' (List.mem_cons_of_mem _ hz')
        refine ⟨c :: cs, ?_, by rw [List.filter_cons_of_neg (by rw [hv]; decide)]; exact h2⟩
        rw [List.mapM_cons, hc, h1]
        rfl
  rw [← key zs]
  unfold esGenWarns
  cases hc : zs.mapM (P.child e) with
  | error er =>
    refine ⟨fun h => absurd h (by simp), ?_⟩
    rintro ⟨cs, h, _⟩
    cases h
  | ok cs =>
    dsimp only
    rw [List.isEmpty_iff]
    refine ⟨fun h => ⟨cs, rfl, h⟩, ?_⟩
    rintro ⟨cs', h1, h2⟩
    cases h1
    exact h2

/-- C186: the warnings do not change the result. -/
theorem C186_same (P : ESParams R Z S F) (gens : List (List Z × S)) (initial : R) : (esLoopWarned P gens initial []).2 = esOptimize P gens initial := by
  unfold esOptimize
  generalize ([] : List R) = w
  induction gens generalizing initial w with
  | nil => rfl
  | cons g gs ih =>
    obtain ⟨zs, s⟩ := g
    unfold esLoopWarned esLoop
    cases hg : esGen P zs s initial w with
    | error e => rfl
    | ok o =>
      cases o with
      | stop r => rfl
      | next e w' => exact ih e w'

theorem esGen_none (P : ESParams R Z S F) (zs : List Z) (s : S) (e : R) (w : List R) (h : esGenWarns P zs e = true) :
    esGen P zs s e w = .ok (.next e (dequeAppend P.delay w e)) := by
  unfold esGenWarns at h
  unfold esGen
  cases hc : zs.mapM (P.child e) with
  | error er => rw [hc] at h; cases h
  | ok cs =>
    rw [hc] at h
    dsimp only at h ⊢
    rw [if_pos h]

/-- The specification of `C186_exact`, for a run `run` (its result as a function of the generations), its warnings `ws` and its result `res`. -/
def WarnsRight (P : ESParams R Z S F) (run : List (List Z × S) → Except PyErr R) (gens : List (List Z × S)) (initial : R) (ws : List Bool) (res : Except PyErr R) : Prop :=
  ∃ cur : List R, cur.head? = some initial ∧ (∀ k e, cur[k]? = some e → run (gens.take k) = .ok e) ∧
    ((cur.length = ws.length ∧ ∀ more, run (gens.take ws.length ++ more) = res) ∨
      (cur.length = ws.length + 1 ∧ ws.length = gens.length ∧ ∃ e, cur.getLast? = some e ∧ res = .ok e)) ∧
    ∀ i b, ws[i]? = some b → ∃ g e, gens[i]? = some g ∧ cur[i]? = some e ∧ (b = true ↔ P.NoneUsable g.1 e) ∧ (b = true → cur[i + 1]? = some e)

theorem esLoopWarned_right (P : ESParams R Z S F) (gens : List (List Z × S)) (initial : R) (w : List R) :
    WarnsRight P (fun gs => esLoop P gs initial w) gens initial (esLoopWarned P gens initial w).1 (esLoopWarned P gens initial w).2 := by
  induction gens generalizing initial w with
  | nil =>
    refine ⟨[initial], rfl, fun k e h => ?_, Or.inr ⟨rfl, rfl, initial, rfl, rfl⟩, fun i b h => ?_⟩
    · cases k with
      | zero => cases h; rfl
      | succ k => cases h
    · cases h
  | cons g gs ih =>
    obtain ⟨zs, s⟩ := g
    have ends : ∀ res, (∀ o, esGen P zs s initial w ≠ .ok (.next o (dequeAppend P.delay w initial))) → (∀ more, esLoop P ((zs, s) :: more) initial w = res) →
        WarnsRight P (fun gs => esLoop P gs initial w) ((zs, s) :: gs) initial [esGenWarns P zs initial] res := by
      intro res hno hres
      refine ⟨[initial], rfl, fun k e h => ?_, Or.inl ⟨rfl, fun more => ?_⟩, fun i b h => ?_⟩
      · cases k with
        | zero => cases h; rfl
        | succ k => cases h
      · exact hres _
      · cases i with
        | succ i => cases h
        | zero =>
          cases h
          exact ⟨(zs, s), initial, rfl, rfl, esGenWarns_iff P zs initial, fun hb => absurd (esGen_none P zs s initial w hb) (hno initial)⟩
    cases hg : esGen P zs s initial w with
    | error e =>
      have := ends (.error e) (fun o h => by rw [hg] at h; cases h) (fun more => by unfold esLoop; rw [hg])
      unfold esLoopWarned
      rw [hg]
      exact this
    | ok o =>
      cases o with
      | stop r' =>
        have := ends (.ok r') (fun o h => by rw [hg] at h; cases h) (fun more => by unfold esLoop; rw [hg])
        unfold esLoopWarned
        rw [hg]
        exact this
      | next e w' =>
        have step : ∀ more, esLoop P ((zs, s) :: more) initial w = esLoop P more e w' := fun more => by
          conv_lhs => unfold esLoop
          rw [hg]
        obtain ⟨cur, h1, h0, h2, h3⟩ := ih e w'
        unfold esLoopWarned
        rw [hg]
        dsimp only
        refine ⟨initial :: cur, rfl, fun k e' h => ?_, ?_, fun i b h => ?_⟩
        · cases k with
          | zero => cases h; rfl
          | succ k => exact (step _).trans (h0 k e' h)
        · rcases h2 with ⟨h2, h4⟩ | ⟨h2, h4, e', h5, h6⟩
          · exact Or.inl ⟨by simp [h2], fun more => (step _).trans (h4 more)⟩
          · refine Or.inr ⟨by simp [h2], by simp [h4], e', ?_, h6⟩
            rw [List.getLast?_cons, h5]
            rfl
        · cases i with
          | succ i => exact h3 i b h
          | zero =>
            cases h
            refine ⟨(zs, s), initial, rfl, rfl, esGenWarns_iff P zs initial, fun hb => ?_⟩
            have := esGen_none P zs s initial w hb
            rw [hg] at this
            cases this
            rw [List.getElem?_cons_succ, ← List.head?_eq_getElem?]
            exact h1

/-- C186: let `cur` be the rules from which generations were started: the `k`-th is what the strategy returns with the first `k` generations only. All generations of the run are covered: further generations do not change the result, or all are
carried out, and then the returned rule is the last of `cur`. A generation gives the warning exactly if all of its children were made and none is usable, and then the strategy goes on with, or returns, the same rule. -/
theorem C186_exact (P : ESParams R Z S F) (gens : List (List Z × S)) (initial : R) :
    WarnsRight P (fun gs => esOptimize P gs initial) gens initial (esLoopWarned P gens initial []).1 (esLoopWarned P gens initial []).2 :=
  esLoopWarned_right P gens initial []

example : esLoopWarned (R := ℤ) (Z := ℤ) (S := Unit) ⟨.amp, 2, fun _ z => .ok z, fun c => decide (0 ≤ c), id, fun l _ => fittestFirst id l⟩
    [([4, -9], ()), ([-5, -6], ()), ([2, -3], ()), ([7], ())] 1 [] = ([false, true, false], .ok 4) := by decide +kernel

/-- No generation gives the warning if there is always a usable child. -/
theorem esLoopWarned_none (P : ESParams R Z S F) (hsel : P.SelectsMember) (D : Z → Prop) (Q : R → Prop)
    (hQ : ∀ e c z, Q e → D z → P.child e z = .ok c → Q c ∧ P.valid c = true)
    (gs : List (List Z × S)) (hne : ∀ g ∈ gs, g.1 ≠ []) (hD : ∀ g ∈ gs, ∀ z ∈ g.1, D z) (e : R) (w : List R) (he : Q e) :
    ∀ b ∈ (esLoopWarned P gs e w).1, b = false := by
  induction gs generalizing e w with
  | nil => intro b hb; cases hb
  | cons g gs ih =>
    obtain ⟨zs, s⟩ := g
    have hno : esGenWarns P zs e = false := by
      cases hw : esGenWarns P zs e with
      | false => rfl
      | true =>
        obtain ⟨z, hz⟩ := List.exists_mem_of_ne_nil _ (hne (zs, s) List.mem_cons_self)
        obtain ⟨c, hc, hv⟩ := (esGenWarns_iff P zs e).mp hw z hz
        have := (hQ e c z he (hD _ List.mem_cons_self z hz) hc).2
        rw [hv] at this
        cases this
    unfold esLoopWarned
    cases hg : esGen P zs s e w with
    | error er => simpa using hno
    | ok o =>
      cases o with
      | stop r => simpa using hno
      | next e' w' =>
        intro b hb
        rcases List.mem_cons.mp hb with h | h
        · rw [h, hno]
        · refine ih (fun g hg => hne g (List.mem_cons_of_mem _ hg)) (fun g hg => hD g (List.mem_cons_of_mem _ hg)) e' w' ?_ b h
          rcases (esGen_next P hsel D zs (hD _ List.mem_cons_self) s e e' w w' hg).2 with h' | ⟨z, hz, hc, _⟩
          · rw [h']; exact he
          · exact (hQ e e' z he hz hc).1

end Generic

section Concrete

variable {K : Type} [Field K] [LinearOrder K] [IsStrictOrderedRing K] {d : Nat} {M : Type}

/-- C186: with ordered bounds, mean initialisation, an increase mutation, the combined constraint and fittest selection (the defaults), every run from a training sample inside the feature bounds with at least one child per generation succeeds without
this warning, for all operators, positive delays, numbers of generations and random numbers. -/
theorem C186_default (L : Learner K d M) (ff : RuleFitness K d) (X : List (Point K d)) (y : List K) (hxy : y.length = X.length)
    (op : ESOperator) (delay : Nat) (hd : op = .amp → 1 ≤ delay) (m : Mutation) (hm : IsIncrease m) (sigma : K × K) (r : K) (fb sp : Pairs K d)
    (hfb : ∀ x ∈ X, InBounds fb x) (origin : Point K d) (ho : origin ∈ X)
    (gens : List (List (Pairs K d) × Unit)) (hne : ∀ g ∈ gens, g.1 ≠ []) (hz : ∀ g ∈ gens, ∀ z ∈ g.1, m.DrawOk .ordered sigma z) :
    ∃ ρ0 ρ, initialRule L ff X y .ordered r fb sp origin = .ok ρ0 ∧
      (esLoopWarned (concreteES L ff X y op delay m r fb) gens ρ0 []).2 = .ok ρ ∧
      ∀ b ∈ (esLoopWarned (concreteES L ff X y op delay m r fb) gens ρ0 []).1, b = false := by
  obtain ⟨ρ0, ρ, e0, hρ, -⟩ := C34_origin_kept L ff X y hxy op delay hd m hm sigma r fb sp hfb origin ho gens hz
  refine ⟨ρ0, ρ, e0, (C186_same _ gens ρ0).trans hρ, ?_⟩
  obtain ⟨ρ', e', hs, -⟩ := fit_consistent L ff X X y hxy rfl
    { kind := .ordered, bounds := constrain .ordered r fb (meanInit .ordered origin), inputSpace := sp } (Or.inl rfl)
  have : ρ' = ρ0 := by
    have e0' := e0
    unfold initialRule at e0'
    rw [e0'] at e'
    cases e'
    rfl
  subst this
  refine esLoopWarned_none _ (fun l _ ρ h => (fittestFirst_mem _ l ρ h).1) (m.DrawOk .ordered sigma)
    (fun τ => τ.kind = .ordered ∧ Kind.ordered.call τ.bounds origin = true) ?_ gens hne hz ρ' []
    ⟨hs.1, by rw [hs.2.1]; exact C10_ordered_mean_partial r fb origin (hfb origin ho)⟩
  rintro e c z ⟨hek, hex⟩ hz hc
  obtain ⟨⟨s, hs, _, hexp, hfit, _⟩, h2, h3⟩ := childRule_consistent L ff X y hxy m r fb e c z hc
  rw [hek] at h3
  obtain ⟨b', h4, h5⟩ := C12_step m hm sigma r fb z e.bounds hz origin (hfb origin ho) hex
  rw [h3] at h4; cases h4
  have hck : c.kind = .ordered := h2.trans hek
  refine ⟨⟨hck, h5⟩, ?_⟩
  have hmem : origin ∈ X.filter (c.kind.call c.bounds) := List.mem_filter.mpr ⟨ho, by rw [hck]; exact h5⟩
  change validRule c = true
  unfold validRule
  rw [hs]
  dsimp only
  rw [hfit.mpr ⟨origin, ho, by rw [hck]; exact h5⟩, hexp]
  simp only [Bool.true_and, decide_eq_true_eq]
  exact List.length_pos_of_mem hmem

/-- Hypotheses of `C186_default`, and a run of three generations without warnings. -/
example :
    let X : List (Point ℚ 1) := [![0], ![1], ![2], ![3]]
    let gens : List (List (Pairs ℚ 1) × Unit) := [([![(0, 1)]], ()), ([![(0, 1)]], ()), ([![(0, 1)]], ())]
    (∀ x ∈ X, InBounds ![(0, 3)] x) ∧ (![0] : Point ℚ 1) ∈ X ∧ IsIncrease .halfnormIncrease ∧ (∀ g ∈ gens, g.1 ≠ []) ∧
    (∀ g ∈ gens, ∀ z ∈ g.1, Mutation.halfnormIncrease.DrawOk .ordered ((1 : ℚ), 1) z) ∧
    (initialRule meanLearner negErr X [0, 4, 2, 9] .ordered 0 ![(0, 3)] ![(0, 3)] ![0]).map (fun ρ =>
      (esLoopWarned (concreteES meanLearner negErr X [0, 4, 2, 9] .comma 2 .halfnormIncrease 0 ![(0, 3)]) gens ρ []).1) = .ok [false, false, false] := by
  refine ⟨by decide +kernel, by decide +kernel, Or.inl rfl, by decide +kernel, ?_, by decide +kernel⟩
  unfold Mutation.DrawOk
  decide +kernel

/-- Without the increase mutation the warning is possible: the rule `[0,1]` of the data `0,1,2` is moved away from all samples, and stays as it is. -/
example :
    let X : List (Point ℚ 1) := [![0], ![1], ![2]]
    ((intervalRule 0 1).fit meanLearner negErr X [0, 2, 1]).map (fun ρ =>
      (esLoopWarned (concreteES meanLearner negErr X [0, 2, 1] .plus 2 .normal 0 ![(0, 5)]) [([![(3, 3)]], ())] ρ []).1) = .ok [true] := by decide +kernel

end Concrete

end Suprb
