import Verif.Lemmas.Objects
import Verif.Props.Rule

/-!
# C111: rules in the pool are never changed
-/

set_option autoImplicit false
set_option linter.unusedSectionVars false

namespace Suprb

open Spec

variable {K : Type} [Field K] [LinearOrder K] {d : Nat} {M : Type}

/-- The arrays that are shared by all rules. -/
abbrev HEnv.fixedAt (E : HEnv K d M) : List Nat := [E.spaceAt, E.fbAt]

/-- The arrays of the feature bounds exist. -/
def HEnv.Has (E : HEnv K d M) (sp fb : Pairs K d) (h : RHeap K d M) : Prop := h.arrays[E.spaceAt]? = some sp ∧ h.arrays[E.fbAt]? = some fb

theorem HEnv.Has.keep {E : HEnv K d M} {sp fb : Pairs K d} {n : Nat} {h h' : RHeap K d M} (hh : E.Has sp fb h) (hk : KeepsObjs E.fixedAt n h h') : E.Has sp fb h' :=
  ⟨(hk.fixed _ (by simp)).trans hh.1, (hk.fixed _ (by simp)).trans hh.2⟩

theorem HEnv.has_of_inv {E : HEnv K d M} {h : RHeap K d M} (hi : HInv E.fixedAt h) : ∃ sp fb, E.Has sp fb h :=
  ⟨_, _, List.getElem?_eq_getElem (hi.fixed E.spaceAt (by simp)), List.getElem?_eq_getElem (hi.fixed E.fbAt (by simp))⟩

/-- Constraining and fitting the new object `r`. -/
theorem hFinish_spec (E : HEnv K d M) {sp fb : Pairs K d} {h : RHeap K d M} (hi : HInv E.fixedAt h) (hE : E.Has sp fb h) {r : Nat} {ρ : Rule K d M} (hv : h.view r = some ρ) :
    Sim E.fixedAt r h (((hConstrain E.minRange E.fbAt r).bind fun r => hFit E.learner E.fitness E.X E.y r) h)
      (Rule.fit E.learner E.fitness E.X E.y { ρ with bounds := constrain ρ.kind E.minRange fb ρ.bounds }) fun h' c ρ' => c = r ∧ h'.view c = some ρ' := by
  obtain ⟨h2, e2, k2, v2⟩ := hConstrain_spec hi hv E.minRange (a := E.fbAt) (by simp) fb hE.2
  unfold HM.bind
  rw [e2]
  dsimp only
  obtain ⟨k3, hr⟩ := hFit_spec k2.inv v2 E.learner E.fitness E.X E.y
  exact ⟨k2.trans k3, hr⟩

theorem hInitial_spec (E : HEnv K d M) {sp fb : Pairs K d} {h : RHeap K d M} (hi : HInv E.fixedAt h) (hE : E.Has sp fb h) (k : Kind) (b : Pairs K d) :
    Sim E.fixedAt h.objs.length h (hInitial E k b h) (Rule.fit E.learner E.fitness E.X E.y { kind := k, bounds := constrain k E.minRange fb b, inputSpace := sp })
      fun h' c ρ' => c = h.objs.length ∧ h'.view c = some ρ' := by
  obtain ⟨h1, e1, k1, v1⟩ := hNewRule_spec (M := M) hi k b E.spaceAt (spaceOk_fixed hi (by simp)) sp hE.1
  obtain ⟨k2, hr⟩ := hFinish_spec E k1.inv (hE.keep k1) v1
  unfold hInitial
  rw [HM.bind, e1]
  exact ⟨k1.trans k2, hr⟩

theorem hChild_spec (E : HEnv K d M) {sp fb : Pairs K d} {h : RHeap K d M} (hi : HInv E.fixedAt h) (hE : E.Has sp fb h) (m : Mutation) {r : Nat} {ρ : Rule K d M}
    (hv : h.view r = some ρ) (z : Pairs K d) :
    Sim E.fixedAt h.objs.length h (hChild E m r z h) (childRule E.learner E.fitness E.X E.y m E.minRange fb ρ z) fun h' c ρ' => c = h.objs.length ∧ h'.view c = some ρ' := by
  have e : childRule E.learner E.fitness E.X E.y m E.minRange fb ρ z = (mutate m ρ.kind z ρ.bounds).bind fun b =>
      Rule.fit E.learner E.fitness E.X E.y { ({ ρ.clone with bounds := b } : Rule K d M) with bounds := constrain ρ.kind E.minRange fb b } := by
    unfold childRule childBounds
    cases mutate m ρ.kind z ρ.bounds <;> rfl
  rw [e]
  unfold hChild
  refine Sim.bind (hMutate_spec hi hv m z) fun h' c b hk hb => ?_
  obtain ⟨rfl, hb⟩ := hb
  exact hFinish_spec E hk.inv (hE.keep hk) hb

/-! ## The evolution strategy on objects is the evolution strategy on values -/

/-- The objects `rs` look like the rules `ρs`. -/
def Looks (h : RHeap K d M) (rs : List Nat) (ρs : List (Rule K d M)) : Prop := rs.map h.view = ρs.map some

theorem Looks.of_forall₂ {h : RHeap K d M} {rs : List Nat} {ρs : List (Rule K d M)} (hl : List.Forall₂ (fun r ρ => h.view r = some ρ) rs ρs) : Looks h rs ρs := by
  unfold Looks
  induction hl with
  | nil => rfl
  | cons h1 _ ih => rw [List.map_cons, List.map_cons, h1, ih]

theorem Looks.forall₂ {h : RHeap K d M} {rs : List Nat} {ρs : List (Rule K d M)} (hl : Looks h rs ρs) : List.Forall₂ (fun r ρ => h.view r = some ρ) rs ρs := by
  unfold Looks at hl
  induction rs generalizing ρs with
  | nil => cases ρs with
    | nil => exact .nil
    | cons a l => simp at hl
  | cons r rs ih => cases ρs with
    | nil => simp at hl
    | cons a l =>
      rw [List.map_cons, List.map_cons, List.cons.injEq] at hl
      exact .cons hl.1 (ih hl.2)

theorem Looks.lt {h : RHeap K d M} {rs : List Nat} {ρs : List (Rule K d M)} (hl : Looks h rs ρs) {r : Nat} (hr : r ∈ rs) : r < h.objs.length := by
  have : h.view r ∈ ρs.map some := hl ▸ List.mem_map_of_mem hr
  obtain ⟨ρ, -, e⟩ := List.mem_map.mp this
  exact lt_of_view e.symm

theorem Looks.keep {F : List Nat} {h h' : RHeap K d M} {rs : List Nat} {ρs : List (Rule K d M)} (hl : Looks h rs ρs) (hk : KeepsObjs F h.objs.length h h') : Looks h' rs ρs := by
  unfold Looks at *
  rw [← hl]
  exact List.map_congr_left fun r hr => hk.same r (Looks.lt (ρs := ρs) hl hr)

theorem Looks.filter {h : RHeap K d M} {rs : List Nat} {ρs : List (Rule K d M)} (hl : Looks h rs ρs) : Looks h (rs.filter h.valid) (ρs.filter validRule) := by
  unfold Looks at *
  have h1 := List.filter_map (p := fun o : Option (Rule K d M) => (o.map validRule).getD false) (f := h.view) (l := rs)
  have h2 := List.filter_map (p := fun o : Option (Rule K d M) => (o.map validRule).getD false) (f := some) (l := ρs)
  rw [hl, h2] at h1
  exact h1.symm

theorem Looks.filterMap {h : RHeap K d M} {rs : List Nat} {ρs : List (Rule K d M)} (hl : Looks h rs ρs) : rs.filterMap h.view = ρs := by
  have := hl.forall₂
  induction this with
  | nil => rfl
  | cons h1 _ ih => rw [List.filterMap_cons, h1]; exact congrArg _ (ih (Looks.of_forall₂ (by assumption)))

theorem Looks.getElem? {h : RHeap K d M} {rs : List Nat} {ρs : List (Rule K d M)} (hl : Looks h rs ρs) (i : Nat) : (rs[i]?).map h.view = (ρs[i]?).map some := by
  rw [← List.getElem?_map, ← List.getElem?_map, hl]

theorem Looks.pick {h : RHeap K d M} {rs : List Nat} {ρs : List (Rule K d M)} (hl : Looks h rs ρs) (pick : List (Rule K d M) → Except PyErr Nat) :
    (∃ r ρ, h.pick pick rs = .ok r ∧ pickRule pick ρs = .ok ρ ∧ h.view r = some ρ ∧ r ∈ rs) ∨ (∃ e, h.pick pick rs = .error e ∧ pickRule pick ρs = .error e) := by
  unfold RHeap.pick pickRule
  rw [hl.filterMap]
  cases pick ρs with
  | error e => exact .inr ⟨e, rfl, rfl⟩
  | ok i =>
    have := hl.getElem? i
    dsimp only
    cases h1 : rs[i]? with
    | none =>
      rw [h1] at this
      cases h2 : ρs[i]? with
      | none => exact .inr ⟨_, rfl, rfl⟩
      | some ρ => rw [h2] at this; simp at this
    | some r =>
      rw [h1] at this
      cases h2 : ρs[i]? with
      | none => rw [h2] at this; simp at this
      | some ρ =>
        rw [h2] at this
        exact .inl ⟨r, ρ, rfl, rfl, by simpa using this, List.mem_of_getElem? h1⟩

/-- Fittest selection is selection of a position. -/
theorem pickRule_fittest (ρs : List (Rule K d M)) : pickRule fittestPos ρs = fittestFirst ruleFitnessOf ρs := by
  have hmap : (List.range ρs.length).map (fun i => ρs[i]?) = ρs.map some := by
    apply List.ext_getElem
    · simp
    · intro i h1 h2
      simp at h1
      simp [h1]
  let key : Option (Rule K d M) → WithBot K := fun o => (o.map ruleFitnessOf).getD ⊥
  have h1 := List.map_insertionSort (r := fun a b => key ρs[b]? ≤ key ρs[a]?) (s := fun a b => key b ≤ key a) (fun i => ρs[i]?) (List.range ρs.length) (fun a _ b _ => Iff.rfl)
  have h2 := List.map_insertionSort (r := fun a b : Rule K d M => ruleFitnessOf b ≤ ruleFitnessOf a) (s := fun a b => key b ≤ key a) some ρs (fun a _ b _ => Iff.rfl)
  rw [hmap] at h1
  have h3 : (sortedDesc (fun i => ((ρs[i]?).map ruleFitnessOf).getD ⊥) (List.range ρs.length)).map (fun i => ρs[i]?) = (sortedDesc ruleFitnessOf ρs).map some := h1.trans h2.symm
  unfold pickRule fittestPos fittestFirst fittest
  revert h3
  generalize sortedDesc (fun i => ((ρs[i]?).map ruleFitnessOf).getD ⊥) (List.range ρs.length) = a
  generalize sortedDesc ruleFitnessOf ρs = b
  intro h3
  cases a with
  | nil => cases b with
    | nil => rfl
    | cons _ _ => simp at h3
  | cons x a => cases b with
    | nil => simp at h3
    | cons y b =>
      rw [List.map_cons, List.map_cons, List.cons.injEq] at h3
      simp only [List.take_succ_cons]
      rw [h3.1]

/-- The evolution strategy on values whose selection takes positions. -/
def pickES (E : HEnv K d M) (fb : Pairs K d) (op : ESOperator) (delay : Nat) (m : Mutation) : ESParams (Rule K d M) (Pairs K d) (List (Rule K d M) → Except PyErr Nat) (WithBot K) where
  operator := op
  delay := delay
  child := childRule E.learner E.fitness E.X E.y m E.minRange fb
  valid := validRule
  fitness := ruleFitnessOf
  select := fun l pick => pickRule pick l

theorem Looks.append {h : RHeap K d M} {rs rs' : List Nat} {ρs ρs' : List (Rule K d M)} (hl : Looks h rs ρs) (hl' : Looks h rs' ρs') : Looks h (rs ++ rs') (ρs ++ ρs') := by
  unfold Looks at *
  rw [List.map_append, List.map_append, hl, hl']

theorem Looks.deque {h : RHeap K d M} {rs : List Nat} {ρs : List (Rule K d M)} (hl : Looks h rs ρs) {r : Nat} {ρ : Rule K d M} (hv : h.view r = some ρ) (n : Nat) :
    Looks h (dequeAppend n rs r) (dequeAppend n ρs ρ) := by
  have h1 := hl.append (rs' := [r]) (ρs' := [ρ]) (by unfold Looks; simp [hv])
  have hlen : (rs ++ [r]).length = (ρs ++ [ρ]).length := by
    have := congrArg List.length h1
    simpa using this
  unfold Looks dequeAppend at *
  rw [List.map_drop, List.map_drop, h1, hlen]

theorem Looks.length {h : RHeap K d M} {rs : List Nat} {ρs : List (Rule K d M)} (hl : Looks h rs ρs) : rs.length = ρs.length := by
  have := congrArg List.length hl
  simpa using this

theorem fitnessOf_view {h : RHeap K d M} {r : Nat} {ρ : Rule K d M} (hv : h.view r = some ρ) : h.fitnessOf r = ruleFitnessOf ρ := by
  unfold RHeap.fitnessOf; rw [hv]; rfl

theorem Looks.all {h : RHeap K d M} {rs : List Nat} {ρs : List (Rule K d M)} (hl : Looks h rs ρs) (c : WithBot K) :
    rs.all (fun e => decide (h.fitnessOf e ≤ c)) = ρs.all (fun e => decide (ruleFitnessOf e ≤ c)) := by
  have := hl.forall₂
  induction this with
  | nil => rfl
  | cons h1 _ ih =>
    rw [List.all_cons, List.all_cons, fitnessOf_view h1, ih (Looks.of_forall₂ (by assumption))]

/-- How the outcomes of an iteration on objects and on values correspond; all objects satisfy `P`. -/
def GenLooks (P : Nat → Prop) (h : RHeap K d M) : GenOut Nat → GenOut (Rule K d M) → Prop
  | .stop r, .stop ρ => h.view r = some ρ ∧ P r
  | .next e w, .next ρ ws => h.view e = some ρ ∧ P e ∧ Looks h w ws ∧ ∀ x ∈ w, P x
  | _, _ => False

/-- An iteration of the evolution strategy after the children were made. -/
def esRest {R F : Type} [LE F] [DecidableLE F] (op : ESOperator) (delay : Nat) (valid : R → Bool) (fitness : R → F) (select : List R → Except PyErr R) (elitist : R) (w : List R)
    (children : List R) : Except PyErr (GenOut R) :=
  let validChildren := children.filter valid
  if validChildren.isEmpty then .ok (.next elitist w)
  else match op with
    | .plus => match select (validChildren ++ [elitist]) with
      | .error e => .error e
      | .ok new => .ok (.next new w)
    | .comma => match select validChildren with
      | .error e => .error e
      | .ok new => .ok (.next new w)
    | .amp => match select validChildren with
      | .error e => .error e
      | .ok new =>
        if w.length = delay then
          match w with
          | [] => .error .indexError
          | e0 :: _ => if w.all (fun e => decide (fitness e ≤ fitness e0)) then .ok (.stop e0) else .ok (.next new w)
        else .ok (.next new w)
    | .other => .ok (.next elitist w)

theorem esGen_eq {R Z S F : Type} [LE F] [DecidableLE F] (P : ESParams R Z S F) (zs : List Z) (s : S) (elitist : R) (w : List R) :
    esGen P zs s elitist w = (zs.mapM (P.child elitist)).bind (esRest P.operator P.delay P.valid P.fitness (fun l => P.select l s) elitist (dequeAppend P.delay w elitist)) := by
  unfold esGen esRest
  cases zs.mapM (P.child elitist) <;> rfl

/-- Children of one rule: new objects that look like the children of the value level. -/
theorem hChildren_spec (E : HEnv K d M) {sp fb : Pairs K d} {h : RHeap K d M} (hi : HInv E.fixedAt h) (hE : E.Has sp fb h) (m : Mutation) (zs : List (Pairs K d)) (elitist : Nat)
    (ρ : Rule K d M) (hv : h.view elitist = some ρ) :
    Sim E.fixedAt h.objs.length h (HM.each (hChild E m elitist) zs h) (zs.mapM (childRule E.learner E.fitness E.X E.y m E.minRange fb ρ))
      fun h' cs ρs => Looks h' cs ρs ∧ cs.Nodup ∧ ∀ c ∈ cs, h.objs.length ≤ c := by
  have hself : ∀ (h : RHeap K d M), E.Has sp fb h ∧ h.view elitist = some ρ → ∀ zs : List (Pairs K d),
      List.Forall₂ (fun z z' : Pairs K d => z = z' ∧ E.Has sp fb h ∧ h.view elitist = some ρ) zs zs := by
    intro h hh zs
    induction zs with
    | nil => exact .nil
    | cons z zs ih => exact .cons ⟨rfl, hh⟩ ih
  have := each_sim (F := E.fixedAt) (own := fun _ : Pairs K d => none) (C := fun h (z z' : Pairs K d) => z = z' ∧ E.Has sp fb h ∧ h.view elitist = some ρ)
    (fun h h' z z' hk hh => ⟨hh.1, hh.2.1.keep hk, (hk.same _ (lt_of_view hh.2.2)).trans hh.2.2⟩) (hChild E m elitist) (childRule E.learner E.fitness E.X E.y m E.minRange fb ρ)
    (fun h c b => h.view c = some b) (fun h h' c b hk hh => (hk.same _ (lt_of_view hh)).trans hh) (fun h c b hh => lt_of_view hh)
    (fun h z z' hi hh => by
      obtain ⟨rfl, hE, hv⟩ := hh
      exact (hChild_spec E hi hE m hv z).mono (le_refl _) fun h' c b _ hcb => ⟨hcb.2, .inr (le_of_eq hcb.1.symm)⟩)
    zs zs h hi (hself h ⟨hE, hv⟩ zs) (fun _ _ x hx => by cases hx) (List.pairwise_of_forall fun _ _ x hx => by cases hx)
  exact this.mono (le_refl _) fun h' cs bs _ hh => ⟨Looks.of_forall₂ hh.1, hh.2.1, fun c hc => (hh.2.2 c hc).resolve_left fun ⟨_, _, e⟩ => by cases e⟩

theorem hGen_spec (E : HEnv K d M) {sp fb : Pairs K d} {h : RHeap K d M} (hi : HInv E.fixedAt h) (hE : E.Has sp fb h) (op : ESOperator) (delay : Nat) (m : Mutation)
    (zs : List (Pairs K d)) (pick : List (Rule K d M) → Except PyErr Nat) (elitist : Nat) (ρ : Rule K d M) (hv : h.view elitist = some ρ) (w : List Nat) (ws : List (Rule K d M)) (hw : Looks h w ws) (P : Nat → Prop)
    (hP : P elitist) (hPw : ∀ x ∈ w, P x) (hPn : ∀ x, h.objs.length ≤ x → P x) :
    Sim E.fixedAt h.objs.length h (hGen E op delay m zs pick elitist w h) (esGen (pickES E fb op delay m) zs pick ρ ws) (GenLooks P) := by
  rw [esGen_eq]
  unfold hGen
  refine Sim.bind (hChildren_spec E hi hE m zs elitist ρ hv) fun h' cs ρs hk hcs => ?_
  obtain ⟨hcs, -, hnew⟩ := hcs
  have hv' : h'.view elitist = some ρ := (hk.same _ (lt_of_view hv)).trans hv
  have hw' : Looks h' (dequeAppend delay w elitist) (dequeAppend delay ws ρ) := (hw.keep hk).deque hv' delay
  have hPw' : ∀ x ∈ dequeAppend delay w elitist, P x := by
    intro x hx
    rcases mem_dequeAppend _ _ _ _ hx with h1 | rfl
    · exact hPw x h1
    · exact hP
  have hf := hcs.filter
  have hPf : ∀ x ∈ cs.filter h'.valid, P x := fun x hx => hPn x (hnew x (List.mem_filter.mp hx).1)
  have hlen := hf.length
  change Sim _ _ _ _ (esRest op delay validRule ruleFitnessOf (pickRule pick) ρ (dequeAppend delay ws ρ) ρs) _
  unfold HM.reads
  dsimp only
  revert hw' hPw'
  generalize dequeAppend delay w elitist = w1
  generalize dequeAppend delay ws ρ = w2
  intro hw' hPw'
  unfold esRest
  dsimp only
  by_cases hemp : (ρs.filter validRule).isEmpty = true
  · have hemp' : (cs.filter h'.valid).isEmpty = true := by
      rw [List.isEmpty_iff, ← List.length_eq_zero_iff, hlen, List.length_eq_zero_iff, ← List.isEmpty_iff]; exact hemp
    rw [if_pos hemp, if_pos hemp']
    exact Sim.ok (KeepsObjs.refl hk.inv) ⟨hv', hP, hw', hPw'⟩
  · have hemp' : ¬(cs.filter h'.valid).isEmpty = true := by
      rw [List.isEmpty_iff, ← List.length_eq_zero_iff, hlen, List.length_eq_zero_iff, ← List.isEmpty_iff]; exact hemp
    rw [if_neg hemp, if_neg hemp']
    cases op with
    | plus =>
      rcases (hf.append (rs' := [elitist]) (ρs' := [ρ]) (by unfold Looks; simp [hv'])).pick pick with ⟨r, ρ', e1, e2, hr, hm⟩ | ⟨e, e1, e2⟩
      · dsimp only
        rw [e1, e2]
        refine Sim.ok (KeepsObjs.refl hk.inv) ⟨hr, ?_, hw', hPw'⟩
        rcases List.mem_append.mp hm with h1 | h1
        · exact hPf r h1
        · rw [List.mem_singleton.mp h1]; exact hP
      · dsimp only
        rw [e1, e2]
        exact Sim.err (KeepsObjs.refl hk.inv)
    | comma =>
      rcases hf.pick pick with ⟨r, ρ', e1, e2, hr, hm⟩ | ⟨e, e1, e2⟩
      · dsimp only
        rw [e1, e2]
        exact Sim.ok (KeepsObjs.refl hk.inv) ⟨hr, hPf r hm, hw', hPw'⟩
      · dsimp only
        rw [e1, e2]
        exact Sim.err (KeepsObjs.refl hk.inv)
    | amp =>
      rcases hf.pick pick with ⟨r, ρ', e1, e2, hr, hm⟩ | ⟨e, e1, e2⟩
      · dsimp only
        rw [e1, e2]
        dsimp only
        have hdl := hw'.length
        rw [hdl]
        by_cases hd : w2.length = delay
        · rw [if_pos hd, if_pos hd]
          cases hw'.forall₂ with
          | nil => exact Sim.err (KeepsObjs.refl hk.inv)
          | @cons e0 ρ0 l1 l2 h1 h2 =>
            dsimp only
            rw [fitnessOf_view h1, hw'.all]
            split_ifs
            · exact Sim.ok (KeepsObjs.refl hk.inv) ⟨h1, hPw' _ List.mem_cons_self⟩
            · exact Sim.ok (KeepsObjs.refl hk.inv) ⟨hr, hPf r hm, hw', hPw'⟩
        · rw [if_neg hd, if_neg hd]
          exact Sim.ok (KeepsObjs.refl hk.inv) ⟨hr, hPf r hm, hw', hPw'⟩
      · dsimp only
        rw [e1, e2]
        exact Sim.err (KeepsObjs.refl hk.inv)
    | other => exact Sim.ok (KeepsObjs.refl hk.inv) ⟨hv', hP, hw', hPw'⟩

theorem hLoop_spec (E : HEnv K d M) {sp fb : Pairs K d} (op : ESOperator) (delay : Nat) (m : Mutation) (P : Nat → Prop) :
    ∀ (gs : List (ESDraw K d M)) (h : RHeap K d M) (elitist : Nat) (ρ : Rule K d M) (w : List Nat) (ws : List (Rule K d M)), HInv E.fixedAt h → E.Has sp fb h →
      h.view elitist = some ρ → Looks h w ws → P elitist → (∀ x ∈ w, P x) → (∀ x, h.objs.length ≤ x → P x) →
      Sim E.fixedAt h.objs.length h (hLoop E op delay m gs elitist w h) (esLoop (pickES E fb op delay m) gs ρ ws)
        fun h' r ρ' => h'.view r = some ρ' ∧ P r := by
  intro gs
  induction gs with
  | nil => intro h elitist ρ w ws hi hE hv hw hP hPw hPn; exact Sim.ok (KeepsObjs.refl hi) ⟨hv, hP⟩
  | cons g gs ih =>
    intro h elitist ρ w ws hi hE hv hw hP hPw hPn
    have e : esLoop (pickES E fb op delay m) (g :: gs) ρ ws =
        (esGen (pickES E fb op delay m) g.1 g.2 ρ ws).bind fun
          | .stop r => .ok r
          | .next e w => esLoop (pickES E fb op delay m) gs e w := by
      rw [esLoop]
      cases esGen (pickES E fb op delay m) g.1 g.2 ρ ws with
      | error e => rfl
      | ok o => cases o <;> rfl
    rw [e]
    unfold hLoop
    refine Sim.bind (hGen_spec E hi hE op delay m g.1 g.2 elitist ρ hv w ws hw P hP hPw hPn) fun h' o o' hk ho => ?_
    cases o with
    | stop r => cases o' with
      | stop ρ' => exact Sim.ok (KeepsObjs.refl hk.inv) ho
      | next _ _ => exact ho.elim
    | next e1 w1 => cases o' with
      | stop _ => exact ho.elim
      | next ρ1 ws1 =>
        obtain ⟨h1, h2, h3, h4⟩ := ho
        exact (ih h' e1 ρ1 w1 ws1 hk.inv (hE.keep hk) h1 h3 h2 h4 fun x hx => hPn x (hk.len.trans hx)).mono hk.len fun _ _ _ _ hx => hx

theorem hAccept_spec {F : List Nat} {h : RHeap K d M} (hi : HInv F h) (n : Nat) (accept : Rule K d M → Except PyErr Bool) (rs : List Nat) (ρs : List (Rule K d M)) (hl : Looks h rs ρs) :
    Sim F n h (hAccept accept rs h) (filterInvalid accept (ρs.map some)) fun h' ks vs => Looks h' ks vs ∧ ks.Sublist rs := by
  have key : ∀ (rs : List Nat) (ρs : List (Rule K d M)), List.Forall₂ (fun r ρ => h.view r = some ρ) rs ρs →
      match filterInvalid (fun r => match h.view r with | none => .error .attributeError | some ρ => accept ρ) (rs.map some), filterInvalid accept (ρs.map some) with
      | .ok ks, .ok vs => Looks h ks vs
      | .error e, .error e' => e = e'
      | _, _ => False := by
    intro rs ρs hl
    induction hl with
    | nil => exact rfl
    | @cons r ρ rs ρs h1 _ ih =>
      rw [List.map_cons, List.map_cons, filterInvalid, filterInvalid, h1]
      dsimp only
      cases accept ρ with
      | error e => exact rfl
      | ok b =>
        cases b with
        | false => exact ih
        | true =>
          dsimp only
          revert ih
          generalize filterInvalid accept (ρs.map some) = b
          generalize filterInvalid _ (rs.map some) = a
          intro ih
          cases a <;> cases b
          · exact ih
          · exact ih
          · exact ih
          · unfold Looks at *
            dsimp only at *
            rw [List.map_cons, List.map_cons, h1, ih]
  have h1 := key rs ρs hl.forall₂
  have h2 := filterInvalid_sublist (fun r => match h.view r with | none => .error .attributeError | some ρ => accept ρ) rs
  unfold hAccept HM.reads
  refine ⟨KeepsObjs.refl hi, ?_⟩
  dsimp only
  revert h1 h2
  generalize filterInvalid accept (ρs.map some) = b
  generalize filterInvalid _ (rs.map some) = a
  intro h1 h2
  cases a <;> cases b
  · exact h1
  · exact h1
  · exact h1
  · exact ⟨h1, h2 _ rfl⟩

theorem hAccept_safe {F : List Nat} {h : RHeap K d M} (hi : HInv F h) (n : Nat) (accept : Rule K d M → Except PyErr Bool) (rs : List Nat) :
    Safe F n h (hAccept accept rs h) fun _ ks => ks.Sublist rs :=
  Safe.reads hi _ fun ks hks => filterInvalid_sublist _ rs ks hks

/-- The rules of the starting conditions, on values. -/
def startRule (E : HEnv K d M) (sp fb : Pairs K d) (k : Kind) (b : Pairs K d) : Except PyErr (Rule K d M) :=
  Rule.fit E.learner E.fitness E.X E.y { kind := k, bounds := constrain k E.minRange fb b, inputSpace := sp }

theorem hStarts_spec (E : HEnv K d M) {sp fb : Pairs K d} {h : RHeap K d M} (hi : HInv E.fixedAt h) (hE : E.Has sp fb h) (k : Kind) (starts : List (Pairs K d)) :
    Sim E.fixedAt h.objs.length h (HM.each (hInitial E k) starts h) (starts.mapM (startRule E sp fb k)) fun h' cs ρs => Looks h' cs ρs ∧ cs.Nodup ∧ ∀ c ∈ cs, h.objs.length ≤ c := by
  have hself : ∀ zs : List (Pairs K d), List.Forall₂ (fun z z' : Pairs K d => z = z' ∧ E.Has sp fb h) zs zs := by
    intro zs
    induction zs with
    | nil => exact .nil
    | cons z zs ih => exact .cons ⟨rfl, hE⟩ ih
  have := each_sim (F := E.fixedAt) (own := fun _ : Pairs K d => none) (C := fun h (z z' : Pairs K d) => z = z' ∧ E.Has sp fb h)
    (fun h h' z z' hk hh => ⟨hh.1, hh.2.keep hk⟩) (hInitial E k) (startRule E sp fb k)
    (fun h c b => h.view c = some b) (fun h h' c b hk hh => (hk.same _ (lt_of_view hh)).trans hh) (fun h c b hh => lt_of_view hh)
    (fun h z z' hi hh => by
      obtain ⟨rfl, hE⟩ := hh
      exact (hInitial_spec E hi hE k z).mono (le_refl _) fun h' c b _ hcb => ⟨hcb.2, .inr (le_of_eq hcb.1.symm)⟩)
    starts starts h hi (hself starts) (fun _ _ x hx => by cases hx) (List.pairwise_of_forall fun _ _ x hx => by cases hx)
  exact this.mono (le_refl _) fun h' cs bs _ hh => ⟨Looks.of_forall₂ hh.1, hh.2.1, fun c hc => (hh.2.2 c hc).resolve_left fun ⟨_, _, e⟩ => by cases e⟩

theorem zip_forall₂ {h : RHeap K d M} {rs : List Nat} {ρs : List (Rule K d M)} {S : Type} (hl : List.Forall₂ (fun r ρ => h.view r = some ρ) rs ρs) (ss : List S) :
    List.Forall₂ (fun (p : Nat × S) (q : Rule K d M × S) => p.2 = q.2 ∧ h.view p.1 = some q.1) (rs.zip ss) (ρs.zip ss) := by
  induction hl generalizing ss with
  | nil => exact .nil
  | cons h1 _ ih => cases ss with
    | nil => exact .nil
    | cons s ss => exact .cons ⟨rfl, h1⟩ (ih ss)

theorem zip_pairwise {S : Type} {rs : List Nat} (hn : rs.Nodup) (ss : List S) : (rs.zip ss).Pairwise fun p q => ∀ x, some p.1 = some x → some q.1 ≠ some x := by
  induction rs generalizing ss with
  | nil => exact .nil
  | cons r rs ih => cases ss with
    | nil => exact .nil
    | cons s ss =>
      refine .cons ?_ (ih (List.nodup_cons.mp hn).2 ss)
      intro q hq x hx hqx
      have h1 : q.1 ∈ rs := (List.of_mem_zip hq).1
      obtain rfl := Option.some.inj hx
      rw [Option.some.inj hqx] at h1
      exact (List.nodup_cons.mp hn).1 h1

theorem mapM_map_some {α β : Type} (f : α → Except PyErr β) (l : List α) : l.mapM (fun a => (f a).map some) = (l.mapM f).map (List.map some) := by
  induction l with
  | nil => rfl
  | cons a l ih =>
    rw [List.mapM_cons, List.mapM_cons, ih]
    cases f a with
    | error e => rfl
    | ok b => cases l.mapM f <;> rfl

/-- A discovery by the evolution strategy on objects shows the same rules, or raises the same exception, as the discovery on values; the returned objects are new and different. -/
theorem hDiscoverES_spec (E : HEnv K d M) {sp fb : Pairs K d} {h : RHeap K d M} (hi : HInv E.fixedAt h) (hE : E.Has sp fb h) (op : ESOperator) (delay : Nat) (m : Mutation)
    (accept : Rule K d M → Except PyErr Bool) (k : Kind) (starts : List (Pairs K d)) (streams : List (List (ESDraw K d M))) :
    Sim E.fixedAt h.objs.length h (hDiscoverES E op delay m accept k starts streams h)
      (discoverRules (startRule E sp fb k) (fun ρ gens => (esOptimize (pickES E fb op delay m) gens ρ).map some) accept starts streams)
      fun h' new ρs => Looks h' new ρs ∧ new.Nodup ∧ ∀ c ∈ new, h.objs.length ≤ c := by
  have e : discoverRules (startRule E sp fb k) (fun ρ gens => (esOptimize (pickES E fb op delay m) gens ρ).map some) accept starts streams =
      (starts.mapM (startRule E sp fb k)).bind fun initial => ((initial.zip streams).mapM fun p => esOptimize (pickES E fb op delay m) p.2 p.1).bind fun rules =>
        filterInvalid accept (rules.map some) := by
    unfold discoverRules
    cases starts.mapM (startRule E sp fb k) with
    | error e => rfl
    | ok initial =>
      dsimp only [Except.bind]
      rw [mapM_map_some fun p : Rule K d M × List (ESDraw K d M) => esOptimize (pickES E fb op delay m) p.2 p.1]
      cases (initial.zip streams).mapM fun p => esOptimize (pickES E fb op delay m) p.2 p.1 <;> rfl
  rw [e]
  unfold hDiscoverES
  refine Sim.bind (hStarts_spec E hi hE k starts) fun h1 init ρs hk1 hinit => ?_
  obtain ⟨hl1, hnd1, hnew1⟩ := hinit
  have hzip := each_sim (F := E.fixedAt) (own := fun p : Nat × List (ESDraw K d M) => some p.1)
    (C := fun h (p : Nat × List (ESDraw K d M)) (q : Rule K d M × List (ESDraw K d M)) => (p.2 = q.2 ∧ h.view p.1 = some q.1) ∧ E.Has sp fb h)
    (fun h h' p q hk hh => ⟨⟨hh.1.1, (hk.same _ (lt_of_view hh.1.2)).trans hh.1.2⟩, hh.2.keep hk⟩)
    (fun p => hLoop E op delay m p.2 p.1 []) (fun p => esOptimize (pickES E fb op delay m) p.2 p.1)
    (fun h c b => h.view c = some b) (fun h h' c b hk hh => (hk.same _ (lt_of_view hh)).trans hh) (fun h c b hh => lt_of_view hh)
    (fun h p q hi hh => by
      obtain ⟨⟨e2, hv⟩, hE⟩ := hh
      have := hLoop_spec E op delay m (fun x => some p.1 = some x ∨ h.objs.length ≤ x) p.2 h p.1 q.1 [] [] hi hE hv rfl (.inl rfl) (fun x hx => absurd hx List.not_mem_nil) (fun x hx => .inr hx)
      rw [e2] at this ⊢
      exact this)
    (init.zip streams) (ρs.zip streams) h1 hk1.inv ((zip_forall₂ hl1.forall₂ streams).imp fun _ _ hx => ⟨hx, hE.keep hk1⟩)
    (fun p hp x hx => by rw [← Option.some.inj hx]; exact hl1.lt (List.of_mem_zip hp).1) (zip_pairwise hnd1 streams)
  refine Sim.bind (hzip.mono hk1.len fun _ _ _ _ hx => hx) fun h2 rules vals hk2 hrules => ?_
  obtain ⟨hl2, hnd2, hnew2⟩ := hrules
  refine (hAccept_spec hk2.inv h.objs.length accept rules vals (Looks.of_forall₂ hl2)).mono (le_refl _) fun h3 ks vs _ hks => ⟨hks.1, hnd2.sublist hks.2, fun c hc => ?_⟩
  rcases hnew2 c (hks.2.subset hc) with ⟨p, hp, hpc⟩ | hge
  · rw [← Option.some.inj hpc]
    exact hnew1 _ (List.of_mem_zip hp).1
  · exact hk1.len.trans hge

/-! ## Random search and novelty search -/

theorem hInitial_safe (E : HEnv K d M) {h : RHeap K d M} (hi : HInv E.fixedAt h) (k : Kind) (b : Pairs K d) :
    Safe E.fixedAt h.objs.length h (hInitial E k b h) fun h' c => c = h.objs.length ∧ c < h'.objs.length := by
  obtain ⟨sp, fb, hE⟩ := HEnv.has_of_inv hi
  exact (hInitial_spec E hi hE k b).safe fun h' c _ _ hc => ⟨hc.1, lt_of_view hc.2⟩

theorem hChild_safe (E : HEnv K d M) {h : RHeap K d M} (hi : HInv E.fixedAt h) (m : Mutation) {r : Nat} (hr : r < h.objs.length) (z : Pairs K d) :
    Safe E.fixedAt h.objs.length h (hChild E m r z h) fun h' c => c = h.objs.length ∧ c < h'.objs.length := by
  obtain ⟨sp, fb, hE⟩ := HEnv.has_of_inv hi
  obtain ⟨o, b, s, -, -, -, hv⟩ := view_some hi hr
  exact (hChild_spec E hi hE m hv z).safe fun h' c _ _ hc => ⟨hc.1, lt_of_view hc.2⟩

theorem hDeepcopy_safe {F : List Nat} {h : RHeap K d M} (hi : HInv F h) {r : Nat} (hr : r < h.objs.length) :
    Safe F h.objs.length h (hDeepcopy r h) fun h' c => c = h.objs.length ∧ c < h'.objs.length := by
  obtain ⟨o, b, s, -, -, -, hv⟩ := view_some hi hr
  obtain ⟨h', e, hk, hv'⟩ := hDeepcopy_spec hi hv
  rw [e]
  exact ⟨hk, fun a ha => by rw [← Except.ok.inj ha]; exact ⟨rfl, lt_of_view hv'⟩⟩

theorem hStarts_safe (E : HEnv K d M) {h : RHeap K d M} (hi : HInv E.fixedAt h) (k : Kind) (starts : List (Pairs K d)) :
    Safe E.fixedAt h.objs.length h (HM.each (hInitial E k) starts h) fun h' cs => cs.Nodup ∧ ∀ c ∈ cs, h.objs.length ≤ c ∧ c < h'.objs.length := by
  obtain ⟨sp, fb, hE⟩ := HEnv.has_of_inv hi
  exact (hStarts_spec E hi hE k starts).safe fun h' cs ρs _ hcs => ⟨hcs.2.1, fun c hc => ⟨hcs.2.2 c hc, hcs.1.lt hc⟩⟩

theorem hGroup_safe (E : HEnv K d M) {h : RHeap K d M} (hi : HInv E.fixedAt h) (k : Kind) (g : List (Pairs K d) × (List (Rule K d M) → Except PyErr (Option Nat))) :
    Safe E.fixedAt h.objs.length h (hGroup E k g h) fun h' o => o.toList.Nodup ∧ ∀ c ∈ o.toList, h.objs.length ≤ c ∧ c < h'.objs.length := by
  unfold hGroup
  refine Safe.bind (hStarts_safe E hi k g.1) fun h1 rs hk hrs => Safe.reads hk.inv _ fun o ho => ⟨?_, ?_⟩
  · cases o with
    | none => exact List.nodup_nil
    | some c => exact List.nodup_singleton c
  · intro c hc
    cases hg : g.2 (rs.filterMap h1.view) with
    | error e => rw [hg] at ho; cases ho
    | ok p =>
      rw [hg] at ho
      cases p with
      | none => obtain rfl := Except.ok.inj ho; exact absurd hc List.not_mem_nil
      | some i =>
        obtain rfl := Except.ok.inj ho
        exact hrs.2 c (List.mem_of_getElem? (Option.mem_toList.mp hc))

theorem filterMap_id_eq (l : List (Option Nat)) : l.filterMap id = l.flatMap Option.toList := by
  induction l with
  | nil => rfl
  | cons a l ih => cases a with
    | none => rw [List.filterMap_cons, List.flatMap_cons, ← ih]; rfl
    | some c => rw [List.filterMap_cons, List.flatMap_cons, ← ih]; rfl

theorem hDiscoverRS_safe (E : HEnv K d M) {h : RHeap K d M} (hi : HInv E.fixedAt h) (accept : Rule K d M → Except PyErr Bool) (k : Kind)
    (groups : List (List (Pairs K d) × (List (Rule K d M) → Except PyErr (Option Nat)))) :
    Safe E.fixedAt h.objs.length h (hDiscoverRS E accept k groups h) fun h' new => new.Nodup ∧ ∀ c ∈ new, h.objs.length ≤ c ∧ c < h'.objs.length := by
  unfold hDiscoverRS
  have h1 := each_safe (F := E.fixedAt) Option.toList (fun _ _ => True) (fun _ _ _ _ _ => trivial) (hGroup E k) (fun h g hi _ => hGroup_safe E hi k g) groups h hi (fun _ _ => trivial)
  refine Safe.bind h1 fun h2 out hk hout => ?_
  rw [filterMap_id_eq]
  refine Safe.mono (n := h.objs.length) (Q := fun h' ks => ks.Sublist (out.flatMap Option.toList) ∧ h' = h2)
    ⟨(hAccept_safe hk.inv _ accept _).1, fun ks hks => ⟨(hAccept_safe hk.inv h.objs.length accept _).2 ks hks, rfl⟩⟩ (le_refl _) ?_
  rintro h' ks - ⟨hks, rfl⟩
  exact ⟨hout.1.sublist hks, fun c hc => hout.2 c (hks.subset hc)⟩

theorem hRuleCrossover_safe {F : List Nat} {h : RHeap K d M} (hi : HInv F h) (rate u : K) (mask : Fin d → Bool) {a b : Nat} (ha : a < h.objs.length) (hb : b < h.objs.length) :
    Safe F h.objs.length h (hRuleCrossover rate u mask a b h) fun h' c => c.1 < h'.objs.length ∧ c.2 < h'.objs.length := by
  unfold hRuleCrossover
  split_ifs
  · obtain ⟨o, x, s, -, -, -, hv⟩ := view_some hi ha
    obtain ⟨o', x', s', -, -, -, hv'⟩ := view_some hi hb
    rw [hv, hv']
    dsimp only
    cases o.kind with
    | ordered =>
      dsimp only
      refine Safe.bind (hDeepcopy_safe hi ha) fun h1 c1 hk1 hc1 => ?_
      refine Safe.bind ((hDeepcopy_safe hk1.inv (lt_of_lt_of_le hb hk1.len)).mono hk1.len fun _ _ hk hx => (⟨hx, hk.len⟩ : _ ∧ h1.objs.length ≤ _)) fun h2 c2 hk2 hc2 => ?_
      obtain ⟨o1, x1, s1, -, -, -, w1⟩ := view_some hk2.inv (lt_of_lt_of_le hc1.2 hc2.2)
      obtain ⟨h3, e3, k3, -, v3⟩ := hAssign_spec hk2.inv w1 (uniformCrossover mask x x').1
      have hle1 : h.objs.length ≤ c1 := le_of_eq hc1.1.symm
      have hle2 : h.objs.length ≤ c2 := hk1.len.trans (le_of_eq hc2.1.1.symm)
      rw [HM.bind, e3]
      dsimp only
      obtain ⟨o2, x2, s2, -, -, -, w2⟩ := view_some k3.inv (lt_of_lt_of_le hc2.1.2 k3.len)
      obtain ⟨h4, e4, k4, -, v4⟩ := hAssign_spec k3.inv w2 (uniformCrossover mask x x').2
      rw [HM.bind, e4]
      refine ⟨(k3.mono hle1).trans (k4.mono hle2), fun c hc => ?_⟩
      rw [← Except.ok.inj hc]
      exact ⟨lt_of_lt_of_le (lt_of_lt_of_le (lt_of_lt_of_le hc1.2 hc2.2) k3.len) k4.len, lt_of_view v4⟩
    | unordered => exact ⟨KeepsObjs.refl hi, fun c hc => by cases hc⟩
    | centerSpread => exact ⟨KeepsObjs.refl hi, fun c hc => by cases hc⟩
    | minPercentage => exact ⟨KeepsObjs.refl hi, fun c hc => by cases hc⟩
  · exact ⟨KeepsObjs.refl hi, fun c hc => by rw [← Except.ok.inj hc]; exact ⟨ha, hb⟩⟩

theorem hBreed_safe (E : HEnv K d M) {h : RHeap K d M} (hi : HInv E.fixedAt h) (m : Mutation) (rate : K) (p : (Nat × Nat) × PairDraw K d) (ha : p.1.1 < h.objs.length)
    (hb : p.1.2 < h.objs.length) :
    Safe E.fixedAt h.objs.length h (hBreed E m rate p h) fun h' c => [c.1, c.2].Nodup ∧ ∀ x ∈ [c.1, c.2], h.objs.length ≤ x ∧ x < h'.objs.length := by
  unfold hBreed
  refine Safe.bind (hRuleCrossover_safe hi rate p.2.u p.2.mask ha hb) fun h1 c hk1 hc => ?_
  refine Safe.bind ((hChild_safe E hk1.inv m hc.1 p.2.first).mono hk1.len fun _ _ hk hx => (⟨hx, hk.len⟩ : _ ∧ h1.objs.length ≤ _)) fun h2 c1 hk2 hc1 => ?_
  refine Safe.bind ((hChild_safe E hk2.inv m (lt_of_lt_of_le hc.2 hc1.2) p.2.second).mono (hk1.len.trans hk2.len) fun _ _ hk hx => (⟨hx, hk.len⟩ : _ ∧ h2.objs.length ≤ _)) fun h3 c2 hk3 hc2 => ?_
  refine Safe.ret hk3.inv _ ?_
  have e1 := hc1.1.1
  have e2 := hc1.1.2
  have e3 := hc2.1.1
  have e4 := hc2.1.2
  have e5 := hc2.2
  have e6 := hk1.len
  have e7 := hk2.len
  refine ⟨List.nodup_cons.mpr ⟨fun hm => ?_, List.nodup_singleton _⟩, fun x hx => ?_⟩
  · have := List.mem_singleton.mp hm
    dsimp only at this
    omega
  · rcases List.mem_cons.mp hx with rfl | hx
    · omega
    · rw [List.mem_singleton.mp hx]; omega

theorem mem_at? {l pos : List Nat} {x : Nat} (hx : x ∈ at? l pos) : x ∈ l := by
  obtain ⟨i, -, hi⟩ := List.mem_filterMap.mp hx
  exact List.mem_of_getElem? hi

theorem mem_bestRanked {rank : Nat → Nat} {l : List Nat} {n x : Nat} (hx : x ∈ bestRanked rank l n) : x ∈ l := mem_at? (List.mem_of_mem_take hx)

theorem nodup_bestRanked (rank : Nat → Nat) {l : List Nat} (hl : l.Nodup) (n : Nat) : (bestRanked rank l n).Nodup := by
  unfold bestRanked at?
  refine List.Nodup.sublist (List.take_sublist _ _) (List.Nodup.filterMap ?_ ((sortedDesc_perm rank _).nodup_iff.mpr List.nodup_range))
  intro i j x hi hj
  obtain ⟨h1, e1⟩ := List.getElem?_eq_some_iff.mp hi
  obtain ⟨h2, e2⟩ := List.getElem?_eq_some_iff.mp hj
  exact (hl.getElem_inj_iff).mp (e1.trans e2.symm)

theorem mem_pairsOf : ∀ (l : List Nat) (p : Nat × Nat), p ∈ pairsOf l → p.1 ∈ l ∧ p.2 ∈ l
  | [], p, h => absurd h List.not_mem_nil
  | [a], p, h => absurd h List.not_mem_nil
  | a :: b :: rest, p, h => by
    rw [pairsOf] at h
    rcases List.mem_cons.mp h with rfl | h
    · exact ⟨List.mem_cons_self, List.mem_cons_of_mem _ List.mem_cons_self⟩
    · have := mem_pairsOf rest p h
      exact ⟨List.mem_cons_of_mem _ (List.mem_cons_of_mem _ this.1), List.mem_cons_of_mem _ (List.mem_cons_of_mem _ this.2)⟩

/-- State of novelty search: the population exists, the best children are new and different. -/
def NsLists (n : Nat) (h : RHeap K d M) (s : List Nat × List Nat) : Prop :=
  (∀ x ∈ s.1, x < h.objs.length) ∧ s.2.Nodup ∧ ∀ x ∈ s.2, n ≤ x ∧ x < h.objs.length

theorem NsLists.keep {n : Nat} {F : List Nat} {k : Nat} {h h' : RHeap K d M} {s : List Nat × List Nat} (hs : NsLists n h s) (hk : KeepsObjs F k h h') : NsLists n h' s :=
  ⟨fun x hx => lt_of_lt_of_le (hs.1 x hx) hk.len, hs.2.1, fun x hx => ⟨(hs.2.2 x hx).1, lt_of_lt_of_le (hs.2.2 x hx).2 hk.len⟩⟩

theorem hNsStep_safe (E : HEnv K d M) {h : RHeap K d M} (hi : HInv E.fixedAt h) (m : Mutation) (rate : K) (mu nElitists : Nat) (c : NsChoice K d M) (s : List Nat × List Nat) (n : Nat)
    (hn : n ≤ h.objs.length) (hs : NsLists n h s) :
    Safe E.fixedAt h.objs.length h (hNsStep E m rate mu nElitists c s h) fun h' s' => NsLists n h' s' := by
  unfold hNsStep
  refine Safe.bind (Safe.reads (Q := fun h' _ => h' = h) hi _ fun pos _ => rfl) fun h1 pos hk1 he => ?_
  subst he
  dsimp only
  by_cases hp : at? s.1 pos = []
  · rw [if_pos hp]; exact Safe.ret hi s hs
  · rw [if_neg hp]
    have hpar : ∀ x ∈ at? s.1 pos, x < h1.objs.length := fun x hx => hs.1 x (mem_at? hx)
    have hbreed := each_safe (F := E.fixedAt) (fun c : Nat × Nat => [c.1, c.2]) (fun h (p : (Nat × Nat) × PairDraw K d) => p.1.1 < h.objs.length ∧ p.1.2 < h.objs.length)
      (fun h h' p hk hp => ⟨lt_of_lt_of_le hp.1 hk.len, lt_of_lt_of_le hp.2 hk.len⟩) (hBreed E m rate) (fun h p hi hp => hBreed_safe E hi m rate p hp.1 hp.2)
      (((pairsOf (at? s.1 pos)).zipIdx).map fun p => (p.1, c.draws p.2)) h1 hi (by
        intro p hp
        obtain ⟨q, hq, rfl⟩ := List.mem_map.mp hp
        have hq1 : q.1 ∈ pairsOf (at? s.1 pos) := by
          obtain ⟨-, -, e⟩ := List.mem_zipIdx hq
          rw [e]; exact List.getElem_mem _
        exact ⟨hpar _ (mem_pairsOf _ _ hq1).1, hpar _ (mem_pairsOf _ _ hq1).2⟩)
    refine Safe.bind hbreed fun h2 cs hk2 hcs => Safe.reads hk2.inv _ fun s' hs' => ?_
    have hvnd : ((cs.flatMap fun c => [c.1, c.2]).filter h2.valid).Nodup := hcs.1.filter _
    have hvm : ∀ x ∈ (cs.flatMap fun c => [c.1, c.2]).filter h2.valid, n ≤ x ∧ x < h2.objs.length := by
      intro x hx
      have := hcs.2 x (List.mem_filter.mp hx).1
      omega
    revert hs' hvnd hvm
    generalize (cs.flatMap fun c => [c.1, c.2]).filter h2.valid = vc
    intro hs' hvnd hvm
    split_ifs at hs' with hv
    · rw [← Except.ok.inj hs']; exact hs.keep hk2
    · revert hs'
      generalize c.childRank (vc.filterMap h2.view) = A
      generalize c.parentRank ((at? s.1 pos).filterMap h2.view) = B
      intro hs'
      cases A with
      | error e => cases hs'
      | ok cr => cases B with
        | error e => cases hs'
        | ok pr =>
          rw [← Except.ok.inj hs']
          refine ⟨?_, nodup_bestRanked cr hvnd mu, fun x hx => hvm x (mem_bestRanked hx)⟩
          intro x hx
          rcases List.mem_append.mp hx with hx | hx
          · exact (hvm x (mem_bestRanked hx)).2
          · exact lt_of_lt_of_le (hpar x (mem_bestRanked hx)) hk2.len

theorem hNsLoop_safe (E : HEnv K d M) (m : Mutation) (rate : K) (mu nElitists : Nat) (n : Nat) :
    ∀ (cs : List (NsChoice K d M)) (h : RHeap K d M) (s : List Nat × List Nat), HInv E.fixedAt h → n ≤ h.objs.length → NsLists n h s →
      Safe E.fixedAt h.objs.length h (hNsLoop E m rate mu nElitists cs s h) fun h' s' => NsLists n h' s' := by
  intro cs
  induction cs with
  | nil => intro h s hi _ hs; exact Safe.ret hi s hs
  | cons c cs ih =>
    intro h s hi hn hs
    unfold hNsLoop
    refine Safe.bind (hNsStep_safe E hi m rate mu nElitists c s n hn hs) fun h1 s1 hk1 hs1 => ?_
    exact (ih h1 s1 hk1.inv (hn.trans hk1.len) hs1).mono hk1.len fun _ _ _ hx => hx

theorem hDiscoverNS_safe (E : HEnv K d M) {h : RHeap K d M} (hi : HInv E.fixedAt h) (m : Mutation) (rate : K) (mu nElitists : Nat) (accept : Rule K d M → Except PyErr Bool) (k : Kind)
    (pool : List Nat) (hpool : ∀ r ∈ pool, r < h.objs.length) (starts : List (Pairs K d)) (choices : List (NsChoice K d M)) (n : Nat) :
    Safe E.fixedAt h.objs.length h (hDiscoverNS E m rate mu nElitists accept k pool starts choices n h) fun h' new => new.Nodup ∧ ∀ c ∈ new, h.objs.length ≤ c ∧ c < h'.objs.length := by
  unfold hDiscoverNS
  have h0 := each_safe (F := E.fixedAt) (fun c : Nat => [c]) (fun h (r : Nat) => r < h.objs.length) (fun h h' r hk hr => lt_of_lt_of_le hr hk.len) hDeepcopy
    (fun h r hi hr => (hDeepcopy_safe hi hr).mono (le_refl _) fun h' c _ hc => ⟨List.nodup_singleton c, fun x hx => by
      rw [List.mem_singleton.mp hx]; exact ⟨le_of_eq hc.1.symm, hc.2⟩⟩) pool h hi hpool
  refine Safe.bind h0 fun h1 _ hk1 _ => ?_
  refine Safe.bind ((hStarts_safe E hk1.inv k starts).mono hk1.len fun _ _ hk hx => (⟨hk.len, hx⟩ : h1.objs.length ≤ _ ∧ _)) fun h2 pop hk2 hpop => ?_
  refine Safe.bind ((hNsLoop_safe E m rate mu nElitists h.objs.length choices h2 (pop, []) hk2.inv (hk1.len.trans hk2.len)
    ⟨fun x hx => (hpop.2.2 x hx).2, List.nodup_nil, fun x hx => absurd hx List.not_mem_nil⟩).mono (hk1.len.trans hk2.len) fun _ _ _ hx => hx) fun h3 s hk3 hs => ?_
  refine Safe.mono (n := h.objs.length) (Q := fun h' ks => ks.Sublist (s.2.take n) ∧ h' = h3)
    ⟨(hAccept_safe hk3.inv _ accept _).1, fun ks hks => ⟨(hAccept_safe hk3.inv h.objs.length accept _).2 ks hks, rfl⟩⟩ (le_refl _) ?_
  rintro h' ks - ⟨hks, rfl⟩
  have hsub := hks.trans (List.take_sublist n s.2)
  exact ⟨hs.2.1.sublist hsub, fun c hc => hs.2.2 c (hsub.subset hc)⟩

/-! ## The whole training -/

theorem HCall.run_safe (E : HEnv K d M) {h : RHeap K d M} (hi : HInv E.fixedAt h) (pool : List Nat) (hpool : ∀ r ∈ pool, r < h.objs.length) (c : HCall K d M) :
    Safe E.fixedAt h.objs.length h (c.run E pool h) fun h' new => new.Nodup ∧ ∀ r ∈ new, h.objs.length ≤ r ∧ r < h'.objs.length := by
  cases c with
  | es op delay m accept k starts streams =>
    obtain ⟨sp, fb, hE⟩ := HEnv.has_of_inv hi
    exact (hDiscoverES_spec E hi hE op delay m accept k starts streams).safe fun h' new ρs _ hx => ⟨hx.2.1, fun r hr => ⟨hx.2.2 r hr, hx.1.lt hr⟩⟩
  | rs accept k groups => exact hDiscoverRS_safe E hi accept k groups
  | ns m rate mu nElitists accept k starts choices n => exact hDiscoverNS_safe E hi m rate mu nElitists accept k pool hpool starts choices n

/-- The pool consists of different existing objects. -/
def PoolOk (E : HEnv K d M) (h : RHeap K d M) (pool : List Nat) : Prop := HInv E.fixedAt h ∧ pool.Nodup ∧ ∀ r ∈ pool, r < h.objs.length

theorem hTrain_spec (E : HEnv K d M) : ∀ (cs : List (HCall K d M)) (h : RHeap K d M) (pool : List Nat), PoolOk E h pool →
    PoolOk E (hTrain E cs h pool).1 (hTrain E cs h pool).2 ∧ KeepsObjs E.fixedAt h.objs.length h (hTrain E cs h pool).1 ∧ pool <+: (hTrain E cs h pool).2 := by
  intro cs
  induction cs with
  | nil => intro h pool hp; exact ⟨hp, KeepsObjs.refl hp.1, List.prefix_refl _⟩
  | cons c cs ih =>
    intro h pool hp
    obtain ⟨hk, hr⟩ := HCall.run_safe E hp.1 pool hp.2.2 c
    unfold hTrain
    revert hk hr
    generalize c.run E pool h = out
    obtain ⟨h', res⟩ := out
    intro hk hr
    cases res with
    | error e => exact ⟨⟨hk.inv, hp.2.1, fun r hr' => lt_of_lt_of_le (hp.2.2 r hr') hk.len⟩, hk, List.prefix_refl _⟩
    | ok new =>
      obtain ⟨hnd, hnew⟩ := hr new rfl
      obtain ⟨h1, h2, h3⟩ := ih h' (pool ++ new) ⟨hk.inv, List.nodup_append.mpr ⟨hp.2.1, hnd, fun x hx y hy => by
        have := hp.2.2 x hx; have := (hnew y hy).1; omega⟩, fun r hr' => by
          rcases List.mem_append.mp hr' with hr' | hr'
          · exact lt_of_lt_of_le (hp.2.2 r hr') hk.len
          · exact (hnew r hr').2⟩
      exact ⟨h1, hk.trans (h2.mono hk.len), (List.prefix_append pool new).trans h3⟩

theorem hTrain_append (E : HEnv K d M) : ∀ (cs cs' : List (HCall K d M)) (h : RHeap K d M) (pool : List Nat),
    hTrain E (cs ++ cs') h pool = hTrain E cs' (hTrain E cs h pool).1 (hTrain E cs h pool).2 ∨ hTrain E (cs ++ cs') h pool = hTrain E cs h pool := by
  intro cs
  induction cs with
  | nil => intro cs' h pool; exact .inl rfl
  | cons c cs ih =>
    intro cs' h pool
    rw [List.cons_append]
    rcases hres : c.run E pool h with ⟨h', res⟩
    cases res with
    | error e =>
      have e1 : ∀ l, hTrain E (c :: l) h pool = (h', pool) := fun l => by rw [hTrain, hres]
      rw [e1, e1]; exact .inr rfl
    | ok new =>
      have e1 : ∀ l, hTrain E (c :: l) h pool = hTrain E l h' (pool ++ new) := fun l => by rw [hTrain, hres]
      rw [e1, e1]; exact ih cs' h' (pool ++ new)

/-- A training starts with an empty pool; the arrays that exist are those of the user. -/
theorem poolOk_start (E : HEnv K d M) (arrays : List (Pairs K d)) (h1 : E.spaceAt < arrays.length) (h2 : E.fbAt < arrays.length) :
    PoolOk E { arrays := arrays, objs := [] } [] := by
  refine ⟨⟨?_, ?_, ?_, ?_, ?_⟩, List.nodup_nil, fun r hr => absurd hr List.not_mem_nil⟩
  · intro i o ho; simp at ho
  · intro a ha
    rcases List.mem_cons.mp ha with rfl | ha
    · exact h1
    · rw [List.mem_singleton.mp ha]; exact h2
  · intro i j o o' ho; simp at ho
  · intro i j o o' ho; simp at ho
  · intro i o ho; simp at ho

/-- The discovery phases `before` and then `after` of a training, whatever is drawn and whichever strategies are used, also if one of them raises: the rules that are in the pool after
`before` are still in the pool at the end, at the same positions, and condition, input space, local model, error, fitness, experience, predictions and matched samples of each of
them are what they were. The feature bounds are never altered. -/
theorem C111_pool_unchanged (E : HEnv K d M) (arrays : List (Pairs K d)) (h1 : E.spaceAt < arrays.length) (h2 : E.fbAt < arrays.length) (before after : List (HCall K d M)) :
    let s := hTrain E before { arrays := arrays, objs := [] } []
    let s' := hTrain E (before ++ after) { arrays := arrays, objs := [] } []
    s.2 <+: s'.2 ∧ (∀ r ∈ s.2, ∃ ρ, s.1.view r = some ρ ∧ s'.1.view r = some ρ) ∧
      s'.1.arrays[E.spaceAt]? = arrays[E.spaceAt]? ∧ s'.1.arrays[E.fbAt]? = arrays[E.fbAt]? := by
  intro s s'
  obtain ⟨hp, hk, -⟩ := hTrain_spec E before _ [] (poolOk_start E arrays h1 h2)
  obtain ⟨-, hk', -⟩ := hTrain_spec E (before ++ after) _ [] (poolOk_start E arrays h1 h2)
  have hsee : ∀ r ∈ s.2, ∃ ρ, s.1.view r = some ρ := fun r hr => by
    obtain ⟨o, b, sp, -, -, -, hv⟩ := view_some hp.1 (hp.2.2 r hr)
    exact ⟨_, hv⟩
  refine ⟨?_, ?_, hk'.fixed _ (by simp), hk'.fixed _ (by simp)⟩
  · rcases hTrain_append E before after { arrays := arrays, objs := [] } [] with e | e
    · have := (hTrain_spec E after s.1 s.2 hp).2.2
      change s.2 <+: (hTrain E (before ++ after) _ _).2
      rw [e]; exact this
    · change s.2 <+: (hTrain E (before ++ after) _ _).2
      rw [e]
  · intro r hr
    obtain ⟨ρ, hv⟩ := hsee r hr
    refine ⟨ρ, hv, ?_⟩
    rcases hTrain_append E before after { arrays := arrays, objs := [] } [] with e | e
    · have := (hTrain_spec E after s.1 s.2 hp).2.1.same r (hp.2.2 r hr)
      change (hTrain E (before ++ after) _ _).1.view r = _
      rw [e]; exact this.trans hv
    · change (hTrain E (before ++ after) _ _).1.view r = _
      rw [e]; exact hv

/-- The rules in the pool are different objects, and no two of them share the array of their conditions: writing into the condition of one of them changes this rule only, and not the
feature bounds. -/
theorem C111_no_sharing (E : HEnv K d M) (arrays : List (Pairs K d)) (h1 : E.spaceAt < arrays.length) (h2 : E.fbAt < arrays.length) (calls : List (HCall K d M)) :
    let s := hTrain E calls { arrays := arrays, objs := [] } []
    s.2.Nodup ∧ ∀ r ∈ s.2, ∀ b : Pairs K d,
      (∀ r' ∈ s.2, r' ≠ r → (hWrite r b s.1).1.view r' = s.1.view r') ∧ (∃ ρ, s.1.view r = some ρ ∧ (hWrite r b s.1).1.view r = some { ρ with bounds := b }) ∧
        (hWrite r b s.1).1.arrays[E.spaceAt]? = arrays[E.spaceAt]? ∧ (hWrite r b s.1).1.arrays[E.fbAt]? = arrays[E.fbAt]? := by
  intro s
  obtain ⟨hp, hk, -⟩ := hTrain_spec E calls _ [] (poolOk_start E arrays h1 h2)
  refine ⟨hp.2.1, fun r hr b => ?_⟩
  obtain ⟨o, b0, sp, -, -, -, hv⟩ := view_some hp.1 (hp.2.2 r hr)
  obtain ⟨h', e, hkw, hother, hself⟩ := hWrite_spec hp.1 hv b
  have e' : (hWrite r b s.1).1 = h' := by
    change (hWrite r b (hTrain E calls _ _).1).1 = h'
    rw [e]
  rw [e']
  exact ⟨fun r' _ hne => hother r' hne, ⟨_, hv, hself⟩, (hkw.fixed _ (by simp)).trans (hk.fixed _ (by simp)), (hkw.fixed _ (by simp)).trans (hk.fixed _ (by simp))⟩

/-- What the objects returned by a discovery with the evolution strategy look like: exactly the rules that the computation on values (`Verif.Model.ES`) gives, and the same exception if there is one. -/
theorem C111_evolution_strategy_values (E : HEnv K d M) (sp fb : Pairs K d) (h : RHeap K d M) (pool : List Nat) (hp : PoolOk E h pool) (hE : E.Has sp fb h) (op : ESOperator) (delay : Nat)
    (m : Mutation) (accept : Rule K d M → Except PyErr Bool) (k : Kind) (starts : List (Pairs K d)) (streams : List (List (ESDraw K d M))) :
    let out := (HCall.es op delay m accept k starts streams).run E pool h
    let v := discoverRules (startRule E sp fb k) (fun ρ gens => (esOptimize (pickES E fb op delay m) gens ρ).map some) accept starts streams
    (∀ e, v = .error e → out.2 = .error e) ∧ ∀ ρs, v = .ok ρs → ∃ new, out.2 = .ok new ∧ new.map out.1.view = ρs.map some := by
  intro out v
  obtain ⟨h1, h2⟩ := (hDiscoverES_spec E hp.1 hE op delay m accept k starts streams).elim
  refine ⟨h1, fun ρs hρ => ?_⟩
  obtain ⟨new, e, hl, -⟩ := h2 ρs hρ
  exact ⟨new, e, hl⟩

/-- C13 (ordered rules) on objects, where no two rules share the array of their conditions (`C111_no_sharing`): all rules, in particular the parents, are unchanged. If crossover is performed, the children are two new objects that differ
from the parents only in their conditions; otherwise they are the parents themselves. -/
theorem C13_objects_partial {F : List Nat} {h : RHeap K d M} (hi : HInv F h) (rate u : K) (mask : Fin d → Bool) {a b : Nat} {A B : Rule K d M} (ha : h.view a = some A) (hb : h.view b = some B) (hA : A.kind = .ordered) :
    ∃ h' a' b', hRuleCrossover rate u mask a b h = (h', .ok (a', b')) ∧ (∀ r < h.objs.length, h'.view r = h.view r) ∧ (rate ≤ u → a' = a ∧ b' = b) ∧
      (u < rate → h.objs.length ≤ a' ∧ h.objs.length ≤ b' ∧ a' ≠ b' ∧ ∃ x y, h'.view a' = some { A with bounds := x } ∧ h'.view b' = some { B with bounds := y } ∧
        ∀ i, if mask i then x i = A.bounds i ∧ y i = B.bounds i else x i = B.bounds i ∧ y i = A.bounds i) := by
  by_cases hu : u < rate
  · obtain ⟨h1, e1, k1, v1⟩ := hDeepcopy_spec hi ha
    have hb1 : h1.view b = some B := (k1.same b (lt_of_view hb)).trans hb
    obtain ⟨h2, e2, k2, v2⟩ := hDeepcopy_spec k1.inv hb1
    have hlt : h.objs.length < h1.objs.length := lt_of_view v1
    have w1 : h2.view h.objs.length = some A := (k2.same _ hlt).trans v1
    obtain ⟨h3, e3, k3, o3, v3⟩ := hAssign_spec k2.inv w1 (uniformCrossover mask A.bounds B.bounds).1
    have w2 : h3.view h1.objs.length = some B := (o3 _ (ne_of_gt hlt)).trans v2
    obtain ⟨h4, e4, k4, o4, v4⟩ := hAssign_spec k3.inv w2 (uniformCrossover mask A.bounds B.bounds).2
    refine ⟨h4, h.objs.length, h1.objs.length, ?_, fun r hr => ?_, fun hle => absurd hu (not_lt.mpr hle), fun _ => ⟨le_refl _, k1.len, ne_of_lt hlt, _, _, (o4 _ (ne_of_lt hlt)).trans v3, v4, fun i => ?_⟩⟩
    · unfold hRuleCrossover
      rw [if_pos hu, ha, hb]
      dsimp only
      rw [hA]
      dsimp only
      unfold HM.bind
      rw [e1]
      dsimp only
      rw [e2]
      dsimp only
      rw [e3]
      dsimp only
      rw [e4]
      rfl
    · rw [o4 r (ne_of_lt (hr.trans hlt)), o3 r (ne_of_lt hr), k2.same r (hr.trans hlt), k1.same r hr]
    · unfold uniformCrossover
      cases hm : mask i <;> simp [hm]
  · exact ⟨h, a, b, by unfold hRuleCrossover; rw [if_neg hu], fun _ _ => rfl, fun _ => ⟨rfl, rfl⟩, fun hu' => absurd hu' hu⟩

/-! A training with each of the three strategies. -/

/-- Three samples, mean of the targets as local model, negative error as fitness; one array is both kinds of feature bounds. -/
def objEnv : HEnv ℚ 1 ℚ :=
  { learner := meanLearner, fitness := negErr, X := [fun _ => 0, fun _ => 1 / 2, fun _ => 1], y := [0, 1, 2], minRange := 1 / 10, spaceAt := 0, fbAt := 0 }

/-- All rules are accepted. -/
def acceptAll : Rule ℚ 1 ℚ → Except PyErr Bool := fun _ => .ok true

/-- Discovery with the evolution strategy: two rules, two iterations with two children each, the first child is selected. -/
def objES : HCall ℚ 1 ℚ :=
  .es .comma 2 .halfnormIncrease acceptAll .ordered [fun _ => (0, 0), fun _ => (1, 1)]
    [[([fun _ => (1 / 2, 1 / 2), fun _ => (1 / 4, 1 / 4)], fun _ => .ok 0), ([fun _ => (0, 1 / 4), fun _ => (0, 0)], fun _ => .ok 1)], [([fun _ => (1 / 4, 0), fun _ => (0, 0)], fun _ => .ok 0)]]

/-- An instance of the hypotheses of `C13_objects_partial`. -/
example : ∃ (h : RHeap ℚ 1 ℚ) (A B : Rule ℚ 1 ℚ), HInv [0] h ∧ h.view 0 = some A ∧ h.view 1 = some B ∧ A.kind = .ordered ∧ A.bounds ≠ B.bounds := by
  refine ⟨{ arrays := [fun _ => (0, 1), fun _ => (0, 1 / 2), fun _ => (1 / 4, 1)], objs := [{ kind := .ordered, boundsAt := 1, spaceAt := 0, model := none, st := none }, { kind := .ordered, boundsAt := 2, spaceAt := 0, model := none, st := none }] }, _, _,
    ⟨?_, by simp, ?_, ?_, ?_⟩, rfl, rfl, rfl, fun e => absurd (congrArg (fun f => (f 0).1) e) (by decide +kernel)⟩
  · rintro (_ | _ | i) o ho <;> simp at ho <;> subst ho <;> simp
  · rintro (_ | _ | i) (_ | _ | j) o o' ho ho' <;> simp at ho ho' <;> subst ho <;> subst ho' <;> simp
  · rintro (_ | _ | i) (_ | _ | j) o o' ho ho' <;> simp at ho ho' <;> subst ho <;> subst ho' <;> simp
  · rintro (_ | _ | i) o ho <;> simp at ho <;> subst ho <;> simp

/-- Discovery with random search: one rule out of two. -/
def objRS : HCall ℚ 1 ℚ := .rs acceptAll .ordered [([fun _ => (0, 1 / 2), fun _ => (1 / 2, 1)], fun _ => .ok (some 1))]

/-- Discovery with novelty search: one iteration with one pair of parents. -/
def objNS : HCall ℚ 1 ℚ :=
  .ns .halfnormIncrease 1 2 1 acceptAll .ordered [fun _ => (0, 0), fun _ => (1, 1)]
    [{ parents := fun _ => .ok [1, 0], draws := fun _ => { u := 0, mask := fun _ => true, first := fun _ => (1 / 2, 0), second := fun _ => (0, 1) }, childRank := fun _ => .ok id,
       parentRank := fun _ => .ok id }] 2

example : objEnv.spaceAt < [(fun _ => (0, 1) : Pairs ℚ 1)].length ∧ objEnv.fbAt < [(fun _ => (0, 1) : Pairs ℚ 1)].length ∧
    (hTrain objEnv [objES] { arrays := [fun _ => (0, 1)], objs := [] } []).2 = [5, 6] ∧
    (hTrain objEnv [objES, objRS, objNS] { arrays := [fun _ => (0, 1)], objs := [] } []).2 = [5, 6, 9, 18, 17] ∧
    ((hTrain objEnv [objES, objRS, objNS] { arrays := [fun _ => (0, 1)], objs := [] } []).1.view 5).map (fun ρ => ρ.bounds 0) = some (0, 11 / 20) := by decide +kernel

end Suprb
