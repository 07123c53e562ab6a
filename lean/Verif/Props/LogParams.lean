import Verif.Model.LogParams
import Verif.Props.Components
import Verif.Props.Configured

/-!
# Claim C182: the recorded parameters

The default logger records the parameters of the estimator.
-/

set_option autoImplicit false
set_option linter.unusedSectionVars false

namespace Suprb

namespace Comp

variable {A : Type}

/-- Specification: the parameter of the object `i` that is named by a list of names has the value `v`; all but the last name are parameters that are objects. -/
inductive Setting (T : Name → ClassInfo A) (h : CHeap A) : List Name → Nat → CVal A → Prop
  | here {i : Nat} {o : CObj A} {ps : List Name} {n : Name} {v : CVal A} (ho : h[i]? = some o) (hp : (T o.cls).params = some ps) (hn : n ∈ ps) (ha : o.attr n = some v) : Setting T h [n] i v
  | inner {i j : Nat} {o : CObj A} {ps : List Name} {n : Name} {path : List Name} {v : CVal A} (ho : h[i]? = some o) (hp : (T o.cls).params = some ps) (hn : n ∈ ps) (ha : o.attr n = some (.ref j))
      (hs : Setting T h path j v) : Setting T h (n :: path) i v

theorem deepParams_iff (T : Name → ClassInfo A) (h : CHeap A) : ∀ (limit i : Nat) (path : List Name) (v : CVal A),
    (path, v) ∈ deepParams T h limit (.ref i) ↔ Setting T h path i v ∧ path.length ≤ limit := by
  intro limit
  induction limit with
  | zero =>
    intro i path v
    refine ⟨fun hm => by simp [deepParams] at hm, ?_⟩
    rintro ⟨hs, hl⟩
    cases hs <;> simp at hl
  | succ k ih =>
    intro i path v
    unfold deepParams
    constructor
    · intro hm
      cases ho : h[i]? with
      | none => rw [ho] at hm; simp at hm
      | some o =>
        rw [ho] at hm
        dsimp only at hm
        cases hp : (T o.cls).params with
        | none => rw [hp] at hm; simp at hm
        | some ps =>
          rw [hp] at hm
          dsimp only at hm
          obtain ⟨n, hn, hm⟩ := List.mem_flatMap.mp hm
          cases ha : o.attr n with
          | none => rw [ha] at hm; simp at hm
          | some w =>
            rw [ha] at hm
            dsimp only at hm
            rcases List.mem_append.mp hm with hm | hm
            · obtain ⟨⟨p, x⟩, hq, he⟩ := List.mem_map.mp hm
              injection he with e1 e2
              dsimp only at e1 e2
              subst e1 e2
              cases w with
              | ref j =>
                obtain ⟨hs, hl⟩ := (ih j p x).mp hq
                exact ⟨.inner ho hp hn ha hs, by simp only [List.length_cons]; omega⟩
              | atom a => cases k <;> simp [deepParams] at hq
              | none => cases k <;> simp [deepParams] at hq
            · rw [List.mem_singleton] at hm
              injection hm with e1 e2
              subst e1 e2
              exact ⟨.here ho hp hn ha, by simp⟩
    · rintro ⟨hs, hl⟩
      cases hs with
      | here ho hp hn ha =>
        rw [ho]
        dsimp only
        rw [hp]
        dsimp only
        refine List.mem_flatMap.mpr ⟨_, hn, ?_⟩
        rw [ha]
        simp
      | inner ho hp hn ha hs =>
        rw [ho]
        dsimp only
        rw [hp]
        dsimp only
        refine List.mem_flatMap.mpr ⟨_, hn, ?_⟩
        rw [ha]
        refine List.mem_append.mpr (Or.inl (List.mem_map.mpr ⟨_, (ih _ _ _).mpr ⟨hs, ?_⟩, rfl⟩))
        simp only [List.length_cons] at hl
        omega

theorem deepParams_frame {T : Name → ClassInfo A} {h h' : CHeap A} {e : Nat} (f : Frame e (fun _ => False) h h') (he : Estimator T h e) (hc : Closed h) :
    ∀ (limit : Nat) (v : CVal A), Valid h v → deepParams T h' limit v = deepParams T h limit v := by
  intro limit
  induction limit with
  | zero => intro v _; rfl
  | succ k ih =>
    intro v hv
    cases v with
    | atom a => rfl
    | none => rfl
    | ref i =>
      have hi : i < h.length := hv
      have key : ∃ o o' : CObj A, h[i]? = some o ∧ h'[i]? = some o' ∧ o'.cls = o.cls ∧ ∀ ps, (T o.cls).params = some ps → ∀ n ∈ ps, o'.attr n = o.attr n := by
        by_cases hie : i = e
        · subst hie
          obtain ⟨⟨o, ps, ho, hp, hd⟩, _⟩ := he
          obtain ⟨o', a, b, c⟩ := f.own o ho
          refine ⟨o, o', ho, a, b, fun ps' hp' n hn => c n (suprbParams_kept n (hd n ?_))⟩
          rw [hp] at hp'
          injection hp' with hp'
          rw [hp']
          exact hn
        · exact ⟨h[i], h[i], List.getElem?_eq_getElem hi, by rw [f.other i hi id hie, List.getElem?_eq_getElem hi], rfl, fun _ _ _ _ => rfl⟩
      obtain ⟨o, o', ho, ho', hcls, hattr⟩ := key
      unfold deepParams
      rw [ho, ho']
      dsimp only
      rw [hcls]
      cases hp : (T o.cls).params with
      | none => rfl
      | some ps =>
        dsimp only
        refine List.flatMap_congr fun n hn => ?_
        rw [hattr ps hp n hn]
        cases ha : o.attr n with
        | none => rfl
        | some w =>
          dsimp only
          rw [ih w (hc i o ho _ (lookup_mem ha))]

/-- The heap at the time of the record and at the end. -/
theorem fitLogged_spec (T : Name → ClassInfo A) (limit e : Nat) (dflt : Root → CObj A) (b : A) (start : List (Name × A)) (training : List (Write A)) (h h' : CHeap A) (R : Record A)
    (out : Except PyErr Unit) (hr : fitLogged T limit e dflt b start training h = (h', .ok (R, out))) :
    ∃ h1, fitObjects T limit e dflt b start [] h = (h1, .ok ()) ∧ R = deepParams T h1 limit (.ref e) ∧ h' = (fitObjects T limit e dflt b start training h).1 := by
  unfold fitLogged at hr
  unfold fitObjects
  simp only [CM.bind] at hr ⊢
  cases hs : CM.forAll (fun q : Name × A => (Write.own q.1 q.2).run e ⟨0, 0, 0, 0⟩) start h with
  | mk g x =>
    rw [hs] at hr
    cases x with
    | error y => simp at hr
    | ok u =>
      dsimp only at hr ⊢
      cases hs2 : setup T limit e dflt b g with
      | mk g2 x2 =>
        rw [hs2] at hr
        cases x2 with
        | error y => simp at hr
        | ok c =>
          simp only [recordParams] at hr
          injection hr with r1 r2
          injection r2 with r2
          injection r2 with r2 r3
          exact ⟨g2, rfl, r2.symm, r1.symm⟩

/-- C182 (partial): the record contains exactly the parameters that the estimator had when `fit` was called, at every depth (up to the recursion limit), and what one sees of the recorded values after the training is what was
configured. Whatever the classes, the configuration, the data and the training, also if it fails. Missing: settings that training replaces, and changes of the estimator after training (see the refuted parts). -/
theorem C182_given_partial (T : Name → ClassInfo A) (limit e : Nat) (dflt : Root → CObj A) (b : A) (start : List (Name × A)) (training : List (Write A)) (h h' : CHeap A) (R : Record A)
    (out : Except PyErr Unit) (hc : Closed h) (he : Estimator T h e) (hd : ∀ r, Within h.length (dflt r)) (hr : fitLogged T limit e dflt b start training h = (h', .ok (R, out))) :
    (∀ path v, (path, v) ∈ R ↔ Setting T h path e v ∧ path.length ≤ limit) ∧
      ∀ path v, (path, v) ∈ R → Valid h v ∧ ∀ rest, look T h' rest v = look T h rest v := by
  obtain ⟨h1, hf, rfl, rfl⟩ := fitLogged_spec T limit e dflt b start training h h' R out hr
  have hframe : Frame e (fun _ => False) h h1 := by
    obtain ⟨_, _, _, _, f, _⟩ := Confined.fitObjects (n0 := h.length) T limit dflt hd b start [] he.lt (le_refl _) id he.2 (empty_private h)
    rw [hf] at f
    exact f
  have heq : deepParams T h1 limit (.ref e) = deepParams T h limit (.ref e) := deepParams_frame hframe he hc limit _ he.lt
  rw [heq]
  have hvalid : ∀ path i v, Setting T h path i v → Valid h v := by
    intro path i v hs
    induction hs with
    | here ho hp hn ha => exact hc _ _ ho _ (lookup_mem ha)
    | inner ho hp hn ha hs ih => exact ih
  refine ⟨fun path v => deepParams_iff T h limit e path v, fun path v hm => ?_⟩
  have hv := hvalid path e v ((deepParams_iff T h limit e path v).mp hm).1
  exact ⟨hv, fun rest => (C112_parameters T limit e dflt b start training h hc he hd).2.2 rest v hv⟩

/-- C182 (partial): recorded plain values stay what they are, and training again, of this or another estimator, changes nothing of what one sees of the record. -/
theorem C182_again_partial (T : Name → ClassInfo A) (limit e e2 : Nat) (dflt : Root → CObj A) (b b2 : A) (start start2 : List (Name × A)) (training training2 : List (Write A)) (h h' : CHeap A)
    (R : Record A) (out : Except PyErr Unit) (hc : Closed h) (he : Estimator T h e) (hd : ∀ r, Within h.length (dflt r)) (hr : fitLogged T limit e dflt b start training h = (h', .ok (R, out)))
    (he2 : Estimator T h' e2) (path : List Name) (v : CVal A) (hm : (path, v) ∈ R) (rest : List Name) :
    look T (fitObjects T limit e2 dflt b2 start2 training2 h').1 rest v = look T h rest v := by
  obtain ⟨hv, hl⟩ := (C182_given_partial T limit e dflt b start training h h' R out hc he hd hr).2 path v hm
  obtain ⟨h1, hf, _, rfl⟩ := fitLogged_spec T limit e dflt b start training h h' R out hr
  obtain ⟨_, _, _, _, f, hcl, _⟩ := Confined.fitObjects (n0 := h.length) T limit dflt hd b start training he.lt (le_refl _) id he.2 (empty_private h)
  have hd' : ∀ r, Within (fitObjects T limit e dflt b start training h).1.length (dflt r) := fun r q hq j hj => lt_of_lt_of_le (hd r q hq j hj) f.len
  have hv' : Valid (fitObjects T limit e dflt b start training h).1 v := by
    cases v with
    | ref i => exact lt_of_lt_of_le hv f.len
    | atom a => trivial
    | none => trivial
  rw [(C112_parameters T limit e2 dflt b2 start2 training2 _ (hcl hc) he2 hd').2.2 rest v hv']
  exact hl rest

theorem Setting.look {T : Name → ClassInfo A} {h : CHeap A} {path : List Name} {i : Nat} {v : CVal A} (hs : Setting T h path i v) (rest : List Name) :
    Comp.look T h (path ++ rest) (.ref i) = Comp.look T h rest v := by
  induction hs with
  | here ho hp hn ha =>
    rw [List.singleton_append]
    simp only [Comp.look, ho, settings, hp, hn, ha, if_true]
  | inner ho hp hn ha hs ih =>
    rw [List.cons_append]
    simp only [Comp.look, ho, settings, hp, hn, ha, if_true]
    exact ih

/-- C182 (partial): the recorded settings of a rule discovery that was given are those its clone is trained with, at every depth: all but `n_jobs`, matching types and bounds that were left empty. Missing: those (`C182_used_refuted`), and default
components (`C182_default_refuted`). As in C134, for configurations in which no part holds a matching function of its own. -/
theorem C182_used_partial (T : Name → ClassInfo A) (limit e : Nat) (dflt : Root → CObj A) (b : A) (h h' : CHeap A) (c : Clones) (R : Record A) (hc : Closed h) (he : Estimator T h e)
    (hd : ∀ r, Within h.length (dflt r)) (hmt : ∀ p n cls, HasMatching n → given T h e dflt (p ++ [n]) ≠ .obj cls) (hr : setup T limit e dflt b h = (h', .ok c))
    (hrec : recordParams T limit e h' = (h', .ok R)) (path : List Name) (v : CVal A) (hne : path ≠ []) (hm : ("rule_discovery" :: path, v) ∈ R) (hj : "n_jobs" ∉ path) (hn : ∀ n ∈ path, ¬ HasMatching n)
    (hb : ∀ p n, path = p ++ [n] → EndsBounds n → v ≠ .none) : look T h' path (.ref c.rd) = look T h [] v := by
  have hR : R = deepParams T h' limit (.ref e) := by
    unfold recordParams at hrec
    injection hrec with _ h2
    injection h2 with h2
    exact h2.symm
  have hframe : Frame e (fun _ => False) h h' := by
    obtain ⟨_, _, _, _, f, _⟩ := Confined.setup (n0 := h.length) T limit dflt hd b he.lt (le_refl _) id he.2 (empty_private h)
    rw [hr] at f
    exact f
  rw [hR, deepParams_frame hframe he hc limit (.ref e) he.lt] at hm
  have hs := ((deepParams_iff T h limit e _ v).mp hm).1
  have hg : given T h e dflt path = look T h [] v := by
    cases hs with
    | here ho hp hn' ha => exact absurd rfl hne
    | inner ho hp hn' ha hs =>
      rename_i j o ps
      have hl := hs.look []
      rw [List.append_nil] at hl
      rw [← hl]
      show lookGiven T h e .discovery (dflt .discovery) path = _
      have hat : ((h[e]?).bind fun o => o.attr (settingName .discovery)) = some (.ref j) := by rw [ho]; exact ha
      unfold lookGiven
      rw [hat]
  rw [← hg]
  refine C134_others_as_given T limit e dflt b h h' c hc he hd hmt hr path hj hn fun p n hp hen => ?_
  rw [hg]
  have := hb p n hp hen
  cases v with
  | none => exact absurd rfl this
  | atom a => simp [Comp.look]
  | ref i =>
    simp only [Comp.look]
    split <;> simp

/-- An instance of `C182_used_partial`: the configuration of the example of C134 (where the premises are shown), with given bounds. -/
example :
    let r := setup exClasses2 10 2 exDefaults2 7 (exHeap2 (.atom 5))
    (r.2.toOption.any fun c => decide (look exClasses2 r.1 ["init", "bounds"] (.ref c.rd) = .atom 5 ∧ look exClasses2 r.1 ["n_iter"] (.ref c.rd) = .atom 500)) ∧
      ((recordParams exClasses2 10 2 r.1).2.toOption.any fun R => decide ((["rule_discovery", "init", "bounds"], .atom 5) ∈ R ∧ (["rule_discovery", "n_iter"], .atom 500) ∈ R)) := by decide +kernel

/-- The record of the training in the example of C112. -/
def exRecord : Record ℚ :=
  [(["rule_discovery", "n_iter"], .atom 500), (["rule_discovery", "mutation", "matching_type"], .none), (["rule_discovery", "mutation", "sigma"], .atom 2), (["rule_discovery", "mutation"], .ref 1),
   (["rule_discovery", "n_jobs"], .atom 1), (["rule_discovery"], .ref 2), (["solution_composition"], .none), (["matching_type"], .none), (["logger"], .none), (["n_jobs"], .atom 4)]

/-- An instance of C182: `exFit` meets the hypotheses (see the example of C112), the training succeeds, and a setting at depth 3 is recorded. The training has changed the `sigma` of its own mutation to 9. -/
example :
    let r := fitLogged exClasses 10 3 exDefaults 0 [("early_stopping_counter_", 0)] exTraining exFit
    r.2 = .ok (exRecord, .ok ()) ∧ (["rule_discovery", "mutation", "sigma"], .atom 2) ∈ exRecord ∧ Setting exClasses exFit ["rule_discovery", "mutation", "sigma"] 3 (.atom 2) ∧
      look exClasses r.1 ["mutation", "sigma"] (.ref 6) = .atom 9 :=
  ⟨rfl, by decide +kernel, .inner rfl rfl (by decide) rfl (.inner rfl rfl (by decide) rfl (.here rfl rfl (by decide) rfl)), by decide +kernel⟩

/-- C182 (refuted): the record does not keep the settings of the training. `model = SupRB(rule_discovery=ES1xLambda(n_iter=500), n_jobs=4)` is trained, then `model.set_params(rule_discovery__n_iter=7)` is called. The
entry `rule_discovery__n_iter` is still 500, but the recorded rule discovery now has 7. -/
theorem C182_set_params_refuted :
    let r := fitLogged exClasses 10 3 exDefaults 0 [("early_stopping_counter_", 0)] exTraining exFit
    r.2 = .ok (exRecord, .ok ()) ∧
      let h2 := (setParam exClasses ["rule_discovery", "n_iter"] (.atom 7) 3 r.1).1
      exRecord.lookup ["rule_discovery", "n_iter"] = some (.atom 500) ∧ exRecord.lookup ["rule_discovery"] = some (.ref 2) ∧
        look exClasses r.1 ["n_iter"] (.ref 2) = .atom 500 ∧ look exClasses h2 ["n_iter"] (.ref 2) = .atom 7 := by
  refine ⟨rfl, ?_⟩
  decide +kernel

/-- C182 (refuted): the record is not what the training used. In the same training the recorded `rule_discovery__n_jobs` is 1, the rule discovery that is used has 4; the matching type of its mutation is recorded as `None`, the one used is
`OrderedBound`. -/
theorem C182_used_refuted :
    let r := fitLogged exClasses 10 3 exDefaults 0 [("early_stopping_counter_", 0)] exTraining exFit
    r.2 = .ok (exRecord, .ok ()) ∧ (r.1[3]?.bind fun o => o.attr "rule_discovery_") = some (.ref 6) ∧
      exRecord.lookup ["rule_discovery", "n_jobs"] = some (.atom 1) ∧ look exClasses r.1 ["n_jobs"] (.ref 6) = .atom 4 ∧
      exRecord.lookup ["rule_discovery", "mutation", "matching_type"] = some .none ∧ look exClasses r.1 ["mutation", "matching_type"] (.ref 6) = .obj "OrderedBound" := by
  refine ⟨rfl, ?_⟩
  decide +kernel

/-- C182 (refuted): with default components none of their settings is recorded. `SupRB()` is trained with 10000 iterations of the evolution strategy; the record says that the rule discovery is `None` and nothing else about it. -/
theorem C182_default_refuted :
    let h := (exModels exImported).1
    let r := fitLogged exClasses 10 5 exDefaults 0 [] [] h
    ∃ R, r.2 = .ok (R, .ok ()) ∧ R.map Prod.fst = [["rule_discovery"], ["solution_composition"], ["matching_type"], ["logger"], ["n_jobs"]] ∧ R.lookup ["rule_discovery"] = some .none ∧
      (r.1[5]?.bind fun o => o.attr "rule_discovery_") = some (.ref 8) ∧ look exClasses r.1 ["n_iter"] (.ref 8) = .atom 10000 := by
  refine ⟨[(["rule_discovery"], .none), (["solution_composition"], .none), (["matching_type"], .none), (["logger"], .none), (["n_jobs"], .atom 1)], rfl, ?_⟩
  decide +kernel

end Comp

end Suprb
