import Verif.Props.Accept

/-!
# C158: values that constructors compute from the settings follow the settings
-/

set_option autoImplicit false
set_option linter.unusedSectionVars false

namespace Suprb

namespace Comp

variable {A : Type} {α β : Type}

/-! ## Specification -/

/-- The object is as its constructor makes it: its attributes are the parameters, and what the constructor computes from just these values. -/
def AsMade (T : Name → ClassInfo A) (o : CObj A) (given : List (Name × CVal A)) : Prop :=
  (T o.cls).params = some (given.map Prod.fst) ∧ o.attrs = given ++ ((T o.cls).derived given).map fun q => (q.1, .atom q.2)

/-- The object found by following parameters of objects with parameters. -/
def follow (T : Name → ClassInfo A) (h : CHeap A) : List Name → CVal A → Option (CObj A)
  | [], .ref i => h[i]?
  | n :: rest, .ref i => (h[i]?).bind fun o => match (T o.cls).params with
    | none => none
    | some ps => if n ∈ ps then (o.attr n).bind (follow T h rest) else none
  | _, _ => none

/-- All components found in this way that have parameters are as their constructors make them. -/
def MadeBelow (T : Name → ClassInfo A) (h : CHeap A) (v : CVal A) : Prop :=
  ∀ path o, follow T h path v = some o → (T o.cls).params.isSome → ∃ given, AsMade T o given

/-! ## Clones -/

theorem follow_new {T : Name → ClassInfo A} {n : Nat} {h h' : CHeap A} (hn : NewClosed n h) (hsame : ∀ i, n ≤ i → i < h.length → h'[i]? = h[i]?) :
    ∀ (path : List Name) (w : CVal A), NewVal n h w → follow T h' path w = follow T h path w := by
  intro path
  induction path with
  | nil =>
    intro w hw
    cases w with
    | ref i => exact hsame i (hw i rfl).1 (hw i rfl).2
    | atom a => rfl
    | none => rfl
  | cons m rest ih =>
    intro w hw
    cases w with
    | ref i =>
      obtain ⟨h1, h2⟩ := hw i rfl
      simp only [follow]
      rw [hsame i h1 h2, List.getElem?_eq_getElem h2]
      simp only [Option.bind_some]
      cases (T h[i].cls).params with
      | none => rfl
      | some ps =>
        dsimp only
        by_cases hm : m ∈ ps
        · rw [if_pos hm, if_pos hm]
          cases ha : h[i].attr m with
          | none => rfl
          | some u =>
            simp only [Option.bind_some]
            exact ih u fun j hj => hn i h[i] h1 (List.getElem?_eq_getElem h2) (m, u) (lookup_mem ha) j hj
        · rw [if_neg hm, if_neg hm]
    | atom a => rfl
    | none => rfl

theorem MadeBelow.new {T : Name → ClassInfo A} {n : Nat} {h h' : CHeap A} {w : CVal A} (hn : NewClosed n h) (hsame : ∀ i, n ≤ i → i < h.length → h'[i]? = h[i]?) (hw : NewVal n h w) (hm : MadeBelow T h w) : MadeBelow T h' w := by
  intro path o ho
  rw [follow_new hn hsame path w hw] at ho
  exact hm path o ho

theorem MadeBelow.append {T : Name → ClassInfo A} {n : Nat} {h l : CHeap A} {w : CVal A} (hn : NewClosed n h) (hw : NewVal n h w) (hm : MadeBelow T h w) : MadeBelow T (h ++ l) w :=
  hm.new hn (fun _ _ hi => List.getElem?_append_left hi) hw

theorem madeBelow_plain (T : Name → ClassInfo A) (h : CHeap A) {v : CVal A} (hv : ∀ i, v ≠ .ref i) : MadeBelow T h v := by
  intro path o ho
  cases v with
  | ref i => exact absurd rfl (hv i)
  | atom a => cases path <;> cases ho
  | none => cases path <;> cases ho

/-- Nothing is found below an object without parameters. -/
theorem madeBelow_opaque {T : Name → ClassInfo A} {h : CHeap A} {i : Nat} {o : CObj A} (ho : h[i]? = some o) (hp : (T o.cls).params = none) : MadeBelow T h (.ref i) := by
  intro path o' ho' hs
  cases path with
  | nil =>
    simp only [follow, ho, Option.some.injEq] at ho'
    rw [← ho', hp] at hs
    cases hs
  | cons m rest => simp [follow, ho, hp] at ho'

theorem deepcopy_class {n k : Nat} {h : CHeap A} {i : Nat} {o : CObj A} (ho : h[i]? = some o) (T : Name → ClassInfo A) (hl : n ≤ h.length) :
    AddsFrom n (deepcopy (k + 1) (.ref i)) h fun h' w => NewVal n h' w ∧ ∃ j o', w = .ref j ∧ h'[j]? = some o' ∧ o'.cls = o.cls := by
  intro hl' hn
  obtain ⟨l, a, b, c⟩ := deepcopy_adds T n (k + 1) (.ref i) h hl hl' hn
  refine ⟨l, a, b, fun w hw => ⟨(c w hw).1, ?_⟩⟩
  have hw' := hw
  unfold deepcopy CM.bind at hw
  simp only [CM.object, ho] at hw
  cases he : CM.each (fun q : Name × CVal A => (deepcopy k q.2).bind fun v => CM.ret (q.1, v)) o.attrs h with
  | mk h1 res =>
    unfold CM.bind at he
    rw [he] at hw
    cases res with
    | error x => cases hw
    | ok attrs =>
      simp only [CM.alloc, CM.ret, Except.ok.injEq] at hw
      have ha : (deepcopy (k + 1) (.ref i) h).1 = h1 ++ [{ cls := o.cls, attrs := attrs }] := by
        unfold deepcopy CM.bind
        simp only [CM.object, ho]
        rw [he]
        rfl
      refine ⟨h1.length, { cls := o.cls, attrs := attrs }, hw.symm, ?_, rfl⟩
      rw [← a, ha]
      simp

theorem cloneVal_made (T : Name → ClassInfo A) (n : Nat) : ∀ (k : Nat) (v : CVal A) (h : CHeap A), n ≤ h.length →
    AddsFrom n (cloneVal T k v) h fun h' w => NewVal n h' w ∧ MadeBelow T h' w := by
  intro k
  induction k with
  | zero =>
    intro v h _
    cases v with
    | atom a => exact AddsFrom.ret _ ⟨(fun _ hj => by cases hj), madeBelow_plain T h (by simp)⟩
    | none => exact AddsFrom.ret _ ⟨(fun _ hj => by cases hj), madeBelow_plain T h (by simp)⟩
    | ref i => exact AddsFrom.raise _ _
  | succ k ih =>
    intro v h hl
    cases v with
    | atom a => exact AddsFrom.ret _ ⟨(fun _ hj => by cases hj), madeBelow_plain T h (by simp)⟩
    | none => exact AddsFrom.ret _ ⟨(fun _ hj => by cases hj), madeBelow_plain T h (by simp)⟩
    | ref i =>
      unfold cloneVal
      refine AddsFrom.bind (AddsFrom.object i) fun l0 o _ ⟨h1, ho⟩ => ?_
      rw [h1]
      cases hp : (T o.cls).params with
      | none =>
        refine (deepcopy_class ho T hl).mono fun l w _ hw => ?_
        obtain ⟨hw1, j, o', rfl, hj, hcls⟩ := hw
        exact ⟨hw1, madeBelow_opaque hj (by rw [hcls, hp])⟩
      | some ps =>
        dsimp only
        have heach := AddsFrom.each (n := n) (h0 := h) (fun p : Name => match o.attr p with
            | none => CM.raise .attributeError
            | some v => (cloneVal T k v).bind fun w => CM.ret (p, w))
          (fun h' p q' => q'.1 = p ∧ NewVal n h' q'.2 ∧ MadeBelow T h' q'.2)
          (fun l l' a b hn ⟨h1, h2, h3⟩ => by
            rw [← List.append_assoc]
            exact ⟨h1, newVal_mono h2 l', h3.append hn h2⟩) ps
          (fun p _ l hn => by
            cases hv : o.attr p with
            | none => exact AddsFrom.raise _ _
            | some v =>
              exact AddsFrom.bind (ih v (h ++ l) (by rw [List.length_append]; omega)) fun l1 w hn1 hw => AddsFrom.ret _ ⟨rfl, hw⟩) []
        rw [List.append_nil] at heach
        refine AddsFrom.bind heach fun l given hn hF => ?_
        have hall : ∀ q ∈ given, NewVal n (h ++ l) q.2 ∧ MadeBelow T (h ++ l) q.2 := by
          intro q hq
          obtain ⟨q0, _, hq0⟩ := forall₂_right hF hq
          exact hq0.2
        have hnames : given.map Prod.fst = ps := by
          clear hall heach hp
          induction hF with
          | nil => rfl
          | cons hq _ ih => simp [hq.1, ih]
        refine AddsFrom.bind (construct_adds T n _ o.cls given fun q hq => (hall q hq).1) fun l2 j hn2 ⟨h2, hj⟩ => AddsFrom.ret _ ?_
        rw [h2] at hn2 ⊢
        subst hj
        have hget : (h ++ l ++ [{ cls := o.cls, attrs := given ++ ((T o.cls).derived given).map fun q => (q.1, CVal.atom q.2) }])[(h ++ l).length]? =
            some { cls := o.cls, attrs := given ++ ((T o.cls).derived given).map fun q => (q.1, CVal.atom q.2) } := by simp
        refine ⟨fun j hj => ?_, fun path o' ho' hs => ?_⟩
        · cases hj
          simp only [List.length_append, List.length_singleton]
          omega
        · cases path with
          | nil =>
            simp only [follow, hget, Option.some.injEq] at ho'
            subst ho'
            exact ⟨given, by simp only [hp, hnames], rfl⟩
          | cons m rest =>
            simp only [follow, hget, Option.bind_some, hp] at ho'
            split_ifs at ho' with hm
            obtain ⟨w, hw1, -⟩ := lookup_names (f := fun p w => NewVal n (h ++ l) w ∧ MadeBelow T (h ++ l) w) hF hm
            have hq := hall _ (lookup_mem hw1)
            simp only [CObj.attr, lookup_append_left hw1, Option.bind_some] at ho'
            exact (hq.2.append hn hq.1) rest o' ho' hs

theorem cloneTop_made (T : Name → ClassInfo A) (n k : Nat) (v : CVal A) (h : CHeap A) (hl : n ≤ h.length) :
    AddsFrom n (cloneTop T k v) h fun h' j => NewVal n h' (.ref j) ∧ MadeBelow T h' (.ref j) := by
  unfold cloneTop
  cases v with
  | atom a => exact AddsFrom.raise _ _
  | none => exact AddsFrom.raise _ _
  | ref i =>
    refine AddsFrom.bind (AddsFrom.object i) fun l0 o _ ⟨h1, ho⟩ => ?_
    rw [h1]
    cases (T o.cls).params with
    | none => exact AddsFrom.raise _ _
    | some ps =>
      refine AddsFrom.bind (cloneVal_made T n k (.ref i) h hl) fun l w hn hw => ?_
      cases w with
      | ref j => exact AddsFrom.ret _ hw
      | atom a => exact AddsFrom.raise _ _
      | none => exact AddsFrom.raise _ _

theorem validate_made {T : Name → ClassInfo A} {limit e : Nat} {r : Root} {d : CObj A} {h h' : CHeap A} {c : Nat} (hel : e < h.length) (hr : validate T limit e r d h = (h', .ok c)) :
    NewClosed (h.length + 1) h' ∧ NewVal (h.length + 1) h' (.ref c) ∧ MadeBelow T h' (.ref c) := by
  obtain ⟨o, ho⟩ : ∃ o, h[e]? = some o := ⟨_, List.getElem?_eq_getElem hel⟩
  have ho1 : (h ++ [d])[e]? = some o := by rw [List.getElem?_append_left hel]; exact ho
  unfold Comp.validate at hr
  simp only [CM.bind, CM.alloc, CM.getAttr, CM.object, ho1] at hr
  cases ha : o.attr r.param with
  | none => rw [ha] at hr; simp [CM.raise] at hr
  | some v =>
    rw [ha] at hr
    simp only [CM.ret] at hr
    obtain ⟨l, a1, a2, a3⟩ := cloneTop_made T (h ++ [d]).length limit (orDefault h.length v) (h ++ [d]) (le_refl _) (le_refl _) (newClosed_self _)
    cases hcl : cloneTop T limit (orDefault h.length v) (h ++ [d]) with
    | mk h1 res =>
      rw [hcl] at hr a1 a3
      dsimp only at hr a1 a3
      subst a1
      cases res with
      | error x => simp at hr
      | ok k =>
        simp only [CM.setAttr, Prod.mk.injEq, Except.ok.injEq] at hr
        obtain ⟨hh, rfl⟩ := hr
        rw [List.length_append, List.length_singleton] at a2 a3
        obtain ⟨b1, b2⟩ := a3 k rfl
        have hlen : h'.length = (h ++ [d] ++ l).length := by rw [← hh, List.length_modify]
        have hsame : ∀ i, h.length + 1 ≤ i → h'[i]? = (h ++ [d] ++ l)[i]? := by
          intro i hi
          have hne : e ≠ i := by omega
          rw [← hh]
          simp [hne]
        refine ⟨fun i p hi hp q hq j hj => ?_, fun j hj => ?_, b2.new a2 (fun i hi _ => hsame i hi) b1⟩
        · rw [hsame i hi] at hp
          rw [hlen]
          exact a2 i p hi hp q hq j hj
        · rw [hlen]
          exact b1 j hj

/-- The clone is still made by constructors after something that does not change objects other than the estimator. -/
theorem MadeBelow.frame {T : Name → ClassInfo A} {e n : Nat} {h h' : CHeap A} {w : CVal A} (hen : e < n) (hn : NewClosed n h) (hw : NewVal n h w) (hm : MadeBelow T h w) (f : Frame e (fun _ => False) h h') : MadeBelow T h' w :=
  hm.new hn (fun i hi hil => f.other i hil id (by omega)) hw

/-! ## C158 -/

/-- When `fit` starts the training, every component, at every depth, is as its constructor makes it from its current parameters. -/
theorem C158_made (T : Name → ClassInfo A) (limit e : Nat) (dflt : Root → CObj A) (h h' : CHeap A) (c : Clones) (hc : Closed h) (he : Estimator T h e) (hd : ∀ r, Within h.length (dflt r))
    (hr : cloneAll T limit e dflt h = (h', .ok c)) (r : Root) : MadeBelow T h' (.ref (c.at r)) := by
  unfold cloneAll at hr
  simp only [CM.bind] at hr
  have k0 : Kept T h e h := ⟨Frame.refl e _ h, hc, he⟩
  cases h1e : validate T limit e .discovery (dflt .discovery) h with
  | mk h1 r1 =>
    rw [h1e] at hr
    cases r1 with
    | error x => simp at hr
    | ok rd =>
      obtain ⟨k1, f1, -⟩ := validate_kept k0 he hc (hd _) h1e
      dsimp only at hr
      cases h2e : validate T limit e .composition (dflt .composition) h1 with
      | mk h2 r2 =>
        rw [h2e] at hr
        cases r2 with
        | error x => simp at hr
        | ok sc =>
          obtain ⟨k2, f2, -⟩ := validate_kept k1 he hc (hd _) h2e
          dsimp only at hr
          cases h3e : validate T limit e .matching (dflt .matching) h2 with
          | mk h3 r3 =>
            rw [h3e] at hr
            cases r3 with
            | error x => simp at hr
            | ok mt =>
              obtain ⟨k3, f3, -⟩ := validate_kept k2 he hc (hd _) h3e
              dsimp only at hr
              cases h4e : validate T limit e .logger (dflt .logger) h3 with
              | mk h4 r4 =>
                rw [h4e] at hr
                cases r4 with
                | error x => simp at hr
                | ok lg =>
                  obtain ⟨k4, f4, -⟩ := validate_kept k3 he hc (hd _) h4e
                  simp only [CM.ret, Prod.mk.injEq, Except.ok.injEq] at hr
                  obtain ⟨rfl, rfl⟩ := hr
                  cases r with
                  | discovery =>
                    obtain ⟨a, b, m⟩ := validate_made he.lt h1e
                    exact m.frame (by have := he.lt; omega) a b ((f2.trans (fun _ h _ => h.elim) f3).trans (fun _ h _ => h.elim) f4)
                  | composition =>
                    obtain ⟨a, b, m⟩ := validate_made k1.est.lt h2e
                    exact m.frame (by have := k1.est.lt; omega) a b (f3.trans (fun _ h _ => h.elim) f4)
                  | matching =>
                    obtain ⟨a, b, m⟩ := validate_made k2.est.lt h3e
                    exact m.frame (by have := k2.est.lt; omega) a b f4
                  | logger => exact (validate_made k3.est.lt h4e).2.2

theorem look_follow {T : Name → ClassInfo A} {h : CHeap A} : ∀ (path : List Name) (v : CVal A) (cls : Name), Constructed T (fun q => look T h q v) path → look T h path v = .obj cls →
    ∃ o, follow T h path v = some o ∧ o.cls = cls ∧ ∀ p, p ∈ settings T o → look T h (path ++ [p]) v = match o.attr p with | some w => look T h [] w | none => .missing := by
  intro path
  induction path with
  | nil =>
    intro v cls _ hcls
    cases v with
    | atom a => cases hcls
    | none => cases hcls
    | ref i =>
      cases ho : h[i]? with
      | none => simp [look, ho] at hcls
      | some o =>
        simp only [look, ho, Look.obj.injEq] at hcls
        refine ⟨o, ho, hcls, fun p hp => ?_⟩
        simp only [List.nil_append, look, ho, if_pos hp]
        cases o.attr p <;> rfl
  | cons n rest ih =>
    intro v cls hcon hcls
    cases v with
    | atom a => cases hcls
    | none => cases hcls
    | ref i =>
      cases ho : h[i]? with
      | none => simp [look, ho] at hcls
      | some o =>
        obtain ⟨c0, hc0, hs⟩ := constructed_nil hcon
        simp only [look, ho, Look.obj.injEq] at hc0
        subst hc0
        obtain ⟨ps, hps⟩ := Option.isSome_iff_exists.mp hs
        have hset : settings T o = ps := by simp [settings, hps]
        simp only [look, ho, hset] at hcls
        split_ifs at hcls with hn
        cases ha : o.attr n with
        | none => rw [ha] at hcls; cases hcls
        | some w =>
          rw [ha] at hcls
          have hstep : ∀ q, look T h (n :: q) (.ref i) = look T h q w := fun q => by simp only [look, ho, hset, if_pos hn, ha]
          obtain ⟨o', h1, h2, h3⟩ := ih w cls (constructed_tail hcon hstep) hcls
          refine ⟨o', ?_, h2, fun p hp => ?_⟩
          · simp only [follow, ho, Option.bind_some, hps, if_pos hn, ha, h1]
          · rw [List.cons_append, hstep]; exact h3 p hp

/-- In terms of the configuration: for every configured component, at every depth, there is one in the training whose parameters are the configured ones, however they were set, and whose other attributes are what its constructor computes from these. -/
theorem C158_configured (T : Name → ClassInfo A) (limit e : Nat) (dflt : Root → CObj A) (h h' : CHeap A) (c : Clones) (hc : Closed h) (he : Estimator T h e) (hd : ∀ r, Within h.length (dflt r))
    (hr : cloneAll T limit e dflt h = (h', .ok c)) (r : Root) (path : List Name) (cls : Name) (hcon : Constructed T (lookGiven T h e r (dflt r)) path) (hcls : lookGiven T h e r (dflt r) path = .obj cls) :
    ∃ o given, follow T h' path (.ref (c.at r)) = some o ∧ o.cls = cls ∧ AsMade T o given ∧ ∀ p a, p ∈ given.map Prod.fst → (given.lookup p = some (.atom a) ↔ lookGiven T h e r (dflt r) (path ++ [p]) = .atom a) := by
  have hlook := (C112_clones T limit e dflt h h' c hc he hd hr r).2
  have hfun : lookGiven T h e r (dflt r) = fun q => look T h' q (.ref (c.at r)) := funext fun q => (hlook q).symm
  obtain ⟨cls', hcls', hs⟩ := hcon path (List.prefix_refl _)
  have hcc : cls' = cls := by rw [hcls'] at hcls; simpa using hcls
  subst hcc
  rw [hfun] at hcon hcls ⊢
  obtain ⟨o, h1, h2, h3⟩ := look_follow path _ cls' hcon hcls
  obtain ⟨given, hg⟩ := C158_made T limit e dflt h h' c hc he hd hr r path o h1 (by rw [h2]; exact hs)
  refine ⟨o, given, h1, h2, hg, fun p a hp => ?_⟩
  dsimp only
  rw [h3 p (by simpa [settings, hg.1] using hp)]
  obtain ⟨v, hv⟩ : ∃ v, given.lookup p = some v := by
    cases hv : given.lookup p with
    | some v => exact ⟨v, rfl⟩
    | none =>
      obtain ⟨q, hq, rfl⟩ := List.mem_map.mp hp
      simpa using List.lookup_eq_none_iff.mp hv q hq
  have hov : o.attr p = some v := by rw [CObj.attr, hg.2]; exact lookup_append_left hv
  rw [hov, hv]
  constructor
  · intro hx; cases hx; rfl
  · intro hx; rw [look_atom hx]

/-! ## The rest of the preparation -/

/-- Attributes that are not parameters are kept. -/
def KeepsOthers (T : Name → ClassInfo A) (h h' : CHeap A) : Prop :=
  ∀ (i : Nat) (o : CObj A), h[i]? = some o → ∃ o', h'[i]? = some o' ∧ o'.cls = o.cls ∧ ∀ n, (∀ ps, (T o.cls).params = some ps → n ∉ ps) → o'.attr n = o.attr n

theorem KeepsOthers.refl (T : Name → ClassInfo A) (h : CHeap A) : KeepsOthers T h h := fun _ o ho => ⟨o, ho, rfl, fun _ _ => rfl⟩

theorem KeepsOthers.trans {T : Name → ClassInfo A} {h h1 h2 : CHeap A} (k1 : KeepsOthers T h h1) (k2 : KeepsOthers T h1 h2) : KeepsOthers T h h2 := by
  intro i o ho
  obtain ⟨o1, a1, a2, a3⟩ := k1 i o ho
  obtain ⟨o2, b1, b2, b3⟩ := k2 i o1 a1
  exact ⟨o2, b1, b2.trans a2, fun n hn => (b3 n (by rw [a2]; exact hn)).trans (a3 n hn)⟩

theorem keepsOthers_bind {T : Name → ClassInfo A} {h : CHeap A} {m : CM A α} {f : α → CM A β} (h1 : KeepsOthers T h (m h).1) (h2 : ∀ a h', KeepsOthers T h' (f a h').1) : KeepsOthers T h ((m.bind f) h).1 := by
  unfold CM.bind
  cases hm : m h with
  | mk h' r =>
    rw [hm] at h1
    cases r with
    | error x => exact h1
    | ok a => exact h1.trans (h2 a h')

theorem keepsOthers_forAll {T : Name → ClassInfo A} {f : α → CM A Unit} (hf : ∀ a h, KeepsOthers T h (f a h).1) : ∀ (xs : List α) (h : CHeap A), KeepsOthers T h (CM.forAll f xs h).1 := by
  intro xs
  induction xs with
  | nil => intro h; exact KeepsOthers.refl T h
  | cons x xs ih => intro h; exact keepsOthers_bind (hf x h) fun _ h' => ih h'

theorem keepsOthers_setParam (T : Name → ClassInfo A) (v : CVal A) : ∀ (path : List Name) (i : Nat) (h : CHeap A), KeepsOthers T h (setParam T path v i h).1 := by
  intro path
  induction path with
  | nil => intro i h; exact KeepsOthers.refl T h
  | cons n rest ih =>
    intro i h
    unfold Comp.setParam CM.bind CM.object
    cases ho : h[i]? with
    | none => exact KeepsOthers.refl T h
    | some o =>
      dsimp only
      cases hp : (T o.cls).params with
      | none => exact KeepsOthers.refl T h
      | some ps =>
        dsimp only
        by_cases hn : n ∈ ps
        swap
        · rw [if_pos hn]; exact KeepsOthers.refl T h
        · rw [if_neg (not_not.mpr hn)]
          cases rest with
          | nil =>
            have hs : KeepsOthers T h (CM.setAttr i n v h).1 := by
              intro k o1 ho1
              by_cases hik : i = k
              · subst hik
                rw [ho] at ho1
                cases ho1
                refine ⟨{ o with attrs := setIn n v o.attrs }, by simp [CM.setAttr, ho], rfl, fun m hm => ?_⟩
                rw [CObj.attr, lookup_setIn, if_neg]
                · rfl
                · rintro rfl; exact hm ps hp hn
              · exact ⟨o1, by simp [CM.setAttr, hik, ho1], rfl, fun _ _ => rfl⟩
            simp only [CM.setAttr] at hs ⊢
            generalize h.modify i (fun o => { o with attrs := setIn n v o.attrs }) = hm at hs ⊢
            cases hm[i]? with
            | none => exact hs
            | some o' =>
              dsimp only
              cases (T o.cls).setCheck hm o' n <;> exact hs
          | cons m rest =>
            dsimp only
            cases o.attr n with
            | none => exact KeepsOthers.refl T h
            | some w =>
              cases w with
              | ref j => exact ih j h
              | atom a => exact KeepsOthers.refl T h
              | none => exact KeepsOthers.refl T h

/-- What `fit` does next (setting `n_jobs`, the bounds and the matching type) changes nothing that is not a parameter. -/
theorem C158_prepared (T : Name → ClassInfo A) (limit e : Nat) (dflt : Root → CObj A) (b : A) (h h2 : CHeap A) (c : Clones) (hr : setup T limit e dflt b h = (h2, .ok c)) :
    ∃ h1, cloneAll T limit e dflt h = (h1, .ok c) ∧ KeepsOthers T h1 h2 := by
  unfold setup at hr
  unfold CM.bind at hr
  cases hcl : cloneAll T limit e dflt h with
  | mk h1 r1 =>
    rw [hcl] at hr
    cases r1 with
    | error x => cases hr
    | ok c1 =>
      have hk : KeepsOthers T h1 (((propagate T e c1.rd c1.sc).bind fun _ => (initBounds T limit c1.rd b).bind fun _ => (initMatching T limit c1.rd c1.mt).bind fun _ => CM.ret c1) h1).1 := by
        refine keepsOthers_bind ?_ fun _ h' => keepsOthers_bind ?_ fun _ h' => keepsOthers_bind ?_ fun _ h' => KeepsOthers.refl T h'
        · unfold propagate
          refine keepsOthers_bind ?_ fun v h' => keepsOthers_bind (keepsOthers_setParam T v _ _ _) fun _ h' => keepsOthers_setParam T v _ _ _
          unfold CM.getAttr CM.bind CM.object
          cases h1[e]? with
          | none => exact KeepsOthers.refl T h1
          | some o =>
            dsimp only
            cases o.attr "n_jobs" <;> exact KeepsOthers.refl T h1
        · exact keepsOthers_forAll (fun q h => keepsOthers_setParam T _ _ _ h) _ h'
        · exact keepsOthers_forAll (fun q h => keepsOthers_setParam T _ _ _ h) _ h'
      have hc1 : c1 = c := by
        revert hr
        dsimp only
        rcases hp : propagate T e c1.rd c1.sc h1 with ⟨g1, _ | _⟩
        · intro hr; cases hr
        · dsimp only
          rcases initBounds T limit c1.rd b g1 with ⟨g2, _ | _⟩
          · intro hr; cases hr
          · dsimp only
            rcases initMatching T limit c1.rd c1.mt g2 with ⟨g3, _ | _⟩
            · intro hr; cases hr
            · intro hr
              simpa [CM.ret] using (Prod.mk.inj hr).2
      subst hc1
      refine ⟨h1, rfl, ?_⟩
      have he : (((propagate T e c1.rd c1.sc).bind fun _ => (initBounds T limit c1.rd b).bind fun _ => (initMatching T limit c1.rd c1.mt).bind fun _ => CM.ret c1) h1).1 = h2 := congrArg Prod.fst hr
      rw [he] at hk
      exact hk

/-! ## The classes of the project -/

/-- Novelty search: the weight of the fitness in the training is one minus the configured weight of the novelty, however that was set. -/
theorem C158_novelty_bias (limit e : Nat) (dflt : Root → CObj PVal) (h h' : CHeap PVal) (c : Clones) (hc : Closed h) (he : Estimator suprbClasses h e) (hd : ∀ r, Within h.length (dflt r))
    (hr : cloneAll suprbClasses limit e dflt h = (h', .ok c)) (b : ℚ) (hdis : lookGiven suprbClasses h e .discovery (dflt .discovery) [] = .obj "NoveltySearch")
    (hcls : lookGiven suprbClasses h e .discovery (dflt .discovery) ["novelty_calculation"] = .obj "NoveltyFitnessBiased")
    (hb : lookGiven suprbClasses h e .discovery (dflt .discovery) ["novelty_calculation", "novelty_bias"] = .atom (.num b)) :
    ∃ o, follow suprbClasses h' ["novelty_calculation"] (.ref c.rd) = some o ∧ o.attr "novelty_bias" = some (.atom (.num b)) ∧ o.attr "fitness_bias" = some (.atom (.num (1 - b))) := by
  have hcon : Constructed suprbClasses (lookGiven suprbClasses h e .discovery (dflt .discovery)) ["novelty_calculation"] := by
    intro p hp
    rcases List.prefix_cons_iff.mp hp with rfl | ⟨t, rfl, ht⟩
    · exact ⟨_, hdis, rfl⟩
    · rw [List.prefix_nil.mp ht]; exact ⟨_, hcls, rfl⟩
  obtain ⟨o, given, h1, h2, ⟨h3, h4⟩, h5⟩ := C158_configured suprbClasses limit e dflt h h' c hc he hd hr .discovery ["novelty_calculation"] _ hcon hcls
  have hnames : given.map Prod.fst = ["archive", "novelty_bias", "novelty_search_type"] := by
    rw [h2] at h3
    exact (Option.some.inj h3).symm
  have hg := (h5 "novelty_bias" (.num b) (by rw [hnames]; decide)).mpr hb
  have hnone : given.lookup "fitness_bias" = none := by
    rw [List.lookup_eq_none_iff]
    intro q hq
    have : q.1 ∈ ["archive", "novelty_bias", "novelty_search_type"] := by rw [← hnames]; exact List.mem_map_of_mem hq
    simp only [List.mem_cons, List.not_mem_nil, or_false] at this
    rcases this with h | h | h <;> rw [h] <;> decide
  refine ⟨o, h1, ?_, ?_⟩
  · rw [CObj.attr, h4]; exact lookup_append_left hg
  · rw [CObj.attr, h4, List.lookup_append, hnone, h2]
    simp [suprbClasses, hg]
    rfl

/-- The second self-adapting genetic algorithm starts from the configured limits of its rates, however they were set. -/
theorem C158_rates (limit e : Nat) (dflt : Root → CObj PVal) (h h' : CHeap PVal) (c : Clones) (hc : Closed h) (he : Estimator suprbClasses h e) (hd : ∀ r, Within h.length (dflt r))
    (hr : cloneAll suprbClasses limit e dflt h = (h', .ok c)) (a b : PVal) (hcls : lookGiven suprbClasses h e .composition (dflt .composition) [] = .obj "saga2.SelfAdaptingGeneticAlgorithm")
    (ha : lookGiven suprbClasses h e .composition (dflt .composition) ["mutation_rate_max"] = .atom a) (hb : lookGiven suprbClasses h e .composition (dflt .composition) ["crossover_rate_min"] = .atom b) :
    ∃ o, follow suprbClasses h' [] (.ref c.sc) = some o ∧ o.attr "mutation_rate_current_max" = some (.atom a) ∧ o.attr "crossover_rate_current_min" = some (.atom b) := by
  have hcon : Constructed suprbClasses (lookGiven suprbClasses h e .composition (dflt .composition)) [] := by
    intro p hp
    rw [List.prefix_nil.mp hp]
    exact ⟨_, hcls, rfl⟩
  obtain ⟨o, given, h1, h2, ⟨h3, h4⟩, h5⟩ := C158_configured suprbClasses limit e dflt h h' c hc he hd hr .composition [] _ hcon hcls
  have hnames : given.map Prod.fst = ["archive", "crossover", "crossover_rate_max", "crossover_rate_min", "elitist_ratio", "init", "mutation", "mutation_rate_max", "mutation_rate_min", "n_iter", "n_jobs", "population_size", "random_state", "selection", "warm_start"] := by
    rw [h2] at h3
    exact (Option.some.inj h3).symm
  have hga := (h5 "mutation_rate_max" a (by rw [hnames]; decide)).mpr ha
  have hgb := (h5 "crossover_rate_min" b (by rw [hnames]; decide)).mpr hb
  have hnone : ∀ n, n ∉ given.map Prod.fst → given.lookup n = none := by
    intro n hn
    rw [List.lookup_eq_none_iff]
    intro q hq
    simpa using fun hnq => hn (by rw [hnq]; exact List.mem_map_of_mem hq)
  refine ⟨o, h1, ?_, ?_⟩
  · rw [CObj.attr, h4, List.lookup_append, hnone _ (by rw [hnames]; decide), h2]
    simp [suprbClasses, hga]
  · rw [CObj.attr, h4, List.lookup_append, hnone _ (by rw [hnames]; decide), h2]
    simp [suprbClasses, hga, hgb]
    rfl

/-! ## Examples -/

/-- A model with a novelty search (11) that weights novelty and fitness (10), made with `NoveltyFitnessBiased(novelty_bias=0.5)`; 12 is the model. -/
def biasedHeap : CHeap PVal :=
  demoHeap ++
  [{ cls := "ArchiveNovel", attrs := [] }, { cls := "NoveltySearchType", attrs := [] },
   { cls := "NoveltyFitnessBiased", attrs := [("archive", .ref 8), ("novelty_bias", .atom (.num (1 / 2))), ("novelty_search_type", .ref 9), ("k_neighbor", .atom (.num 15)), ("fitness_bias", .atom (.num (1 / 2)))] },
   { cls := "NoveltySearch", attrs := [("acceptance", .none), ("constraint", .none), ("crossover", .none), ("init", .ref 0), ("lmbda", .atom (.num 20)), ("mu", .atom (.num 16)), ("mutation", .ref 1), ("n_elitists", .atom (.num 10)), ("n_iter", .atom (.num 10)),
      ("n_jobs", .atom (.num 1)), ("novelty_calculation", .ref 10), ("origin_generation", .none), ("random_state", .none), ("roh", .atom (.num 15)), ("selection", .none), ("use_population_for_archive", .none)] },
   { cls := "SupRB", attrs := [("early_stopping_delta", .atom (.num 0)), ("early_stopping_patience", .atom (.num (-1))), ("logger", .none), ("matching_type", .none), ("n_initial_rules", .atom (.num 0)), ("n_iter", .atom (.num 32)), ("n_jobs", .atom (.num 1)),
      ("n_rules", .atom (.num 4)), ("random_state", .none), ("rule_discovery", .ref 11), ("solution_composition", .ref 6), ("verbose", .atom (.num 1))] }]

/-- The model after `set_params(rule_discovery__novelty_calculation__novelty_bias=0.9)`. -/
def rebiasedHeap : CHeap PVal := (setParam suprbClasses ["rule_discovery", "novelty_calculation", "novelty_bias"] (.atom (.num (9 / 10))) 12 biasedHeap).1

/-- `set_params` succeeds; the configured component itself keeps the old weight of the fitness, but the component that is used in the training has the new one, in agreement with C158. -/
example : (setParam suprbClasses ["rule_discovery", "novelty_calculation", "novelty_bias"] (.atom (.num (9 / 10))) 12 biasedHeap).2.toOption.isSome ∧
    (rebiasedHeap[10]?).bind (fun o => o.attr "fitness_bias") = some (.atom (.num (1 / 2))) ∧
    (match cloneAll suprbClasses 10 12 demoDefaults rebiasedHeap with
      | (h, .ok c) => (follow suprbClasses h ["novelty_calculation"] (.ref c.rd)).bind fun o => o.attr "fitness_bias"
      | _ => none) = some (.atom (.num (1 / 10))) := by
  decide +kernel

/-- It satisfies the hypotheses. -/
example : Closed rebiasedHeap ∧ Estimator suprbClasses rebiasedHeap 12 ∧ (∀ r, Within rebiasedHeap.length (demoDefaults r)) ∧ lookGiven suprbClasses rebiasedHeap 12 .discovery (demoDefaults .discovery) [] = .obj "NoveltySearch" ∧
    lookGiven suprbClasses rebiasedHeap 12 .discovery (demoDefaults .discovery) ["novelty_calculation"] = .obj "NoveltyFitnessBiased" ∧
    lookGiven suprbClasses rebiasedHeap 12 .discovery (demoDefaults .discovery) ["novelty_calculation", "novelty_bias"] = .atom (.num (9 / 10)) ∧
    (setup suprbClasses 10 12 demoDefaults (.num 0) rebiasedHeap).2.toOption.isSome := by
  have hlen : rebiasedHeap.length = 13 := by decide +kernel
  refine ⟨?_, ⟨?_, fun o ho j => ?_⟩, fun r q hq j hj => ?_, by decide +kernel, by decide +kernel, by decide +kernel, by decide +kernel⟩
  · have hall : (rebiasedHeap.all fun o => o.attrs.all fun q => match q.2 with | .ref j => decide (j < 13) | _ => true) = true := by decide +kernel
    intro i o ho q hq
    have := List.all_eq_true.mp (List.all_eq_true.mp hall o (List.mem_of_getElem? ho)) q hq
    cases hv : q.2 with
    | atom a => trivial
    | none => trivial
    | ref j => rw [hv] at this; exact (by rw [hlen]; exact of_decide_eq_true this : j < rebiasedHeap.length)
  · have : (rebiasedHeap[12]?).map (fun o => o.cls) = some "SupRB" := by decide +kernel
    obtain ⟨o, ho, hcls⟩ := Option.map_eq_some_iff.mp this
    exact ⟨o, _, ho, by rw [hcls]; rfl, by decide⟩
  · have : (rebiasedHeap[12]?).bind (fun o => o.attr "n_jobs") = some (.atom (.num 1)) := by decide +kernel
    rw [ho] at this
    simp only [Option.bind_some] at this
    rw [this]
    simp
  · rw [hlen]
    have := demo_within r q hq j hj
    have h8 : demoHeap.length = 8 := rfl
    omega

/-- The second self-adapting genetic algorithm as the composition (6) of the model. -/
def adaptiveHeap : CHeap PVal :=
  demoHeap.set 6 { cls := "saga2.SelfAdaptingGeneticAlgorithm", attrs := [("archive", .none), ("crossover", .none), ("crossover_rate_max", .atom (.num 1)), ("crossover_rate_min", .atom (.num (1 / 10))), ("elitist_ratio", .atom (.num (17 / 100))), ("init", .ref 5),
    ("mutation", .none), ("mutation_rate_max", .atom (.num (1 / 10))), ("mutation_rate_min", .atom (.num 0)), ("n_iter", .atom (.num 32)), ("n_jobs", .atom (.num 1)), ("population_size", .atom (.num 32)), ("random_state", .none),
    ("selection", .none), ("warm_start", .atom (.num 1)), ("mutation_rate_current_max", .atom (.num (1 / 10))), ("crossover_rate_current_min", .atom (.num (1 / 10)))] }

/-- After `set_params(solution_composition__mutation_rate_max=0.5)` the training starts with the new limit. -/
example : let h := (setParam suprbClasses ["solution_composition", "mutation_rate_max"] (.atom (.num (1 / 2))) 7 adaptiveHeap).1
    lookGiven suprbClasses h 7 .composition (demoDefaults .composition) [] = .obj "saga2.SelfAdaptingGeneticAlgorithm" ∧
    (match cloneAll suprbClasses 10 7 demoDefaults h with
      | (h', .ok c) => (follow suprbClasses h' [] (.ref c.sc)).bind fun o => o.attr "mutation_rate_current_max"
      | _ => none) = some (.atom (.num (1 / 2))) := by
  decide +kernel

end Comp

end Suprb
