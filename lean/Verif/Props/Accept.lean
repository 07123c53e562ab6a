import Verif.Props.Components

/-!
# C115: settings that a constructor rejects are not used for training; C116: settings that are accepted when they are made are accepted by `fit`
-/

set_option autoImplicit false
set_option linter.unusedSectionVars false

namespace Suprb

namespace Comp

variable {A : Type} {α β : Type}

/-! ## Conditions of constructors -/

/-- The path leads to an object with parameters, by way of objects with parameters. (Objects without `get_params` are copied without calling a constructor.) -/
def Constructed (T : Name → ClassInfo A) (f : List Name → Look A) (path : List Name) : Prop := ∀ p, p <+: path → ∃ cls, f p = .obj cls ∧ (T cls).params.isSome

/-- All components satisfy the conditions of their classes: a condition is about the settings of the object and of the objects among them. -/
def AllGood (T : Name → ClassInfo A) (good : Name → (List Name → Look A) → Prop) (f : List Name → Look A) : Prop :=
  ∀ path cls, Constructed T f path → f path = .obj cls → good cls fun q => f (path ++ q)

/-- What is found in an object that is constructed with the given arguments. -/
def argLook (T : Name → ClassInfo A) (h : CHeap A) (cls : Name) (given : List (Name × CVal A)) : List Name → Look A
  | [] => .obj cls
  | p :: rest => match given.lookup p with
    | some v => look T h rest v
    | none => .missing

/-- The constructors check the conditions. -/
def Checks (T : Name → ClassInfo A) (good : Name → (List Name → Look A) → Prop) : Prop :=
  ∀ (cls : Name) (h : CHeap A) (given : List (Name × CVal A)), (T cls).check h given = none → good cls (argLook T h cls given)

theorem constructed_nil {T : Name → ClassInfo A} {f : List Name → Look A} {path : List Name} (h : Constructed T f path) : ∃ cls, f [] = .obj cls ∧ (T cls).params.isSome := h [] List.nil_prefix

theorem constructed_tail {T : Name → ClassInfo A} {f g : List Name → Look A} {p : Name} {rest : List Name} (h : Constructed T f (p :: rest)) (hfg : ∀ q, f (p :: q) = g q) : Constructed T g rest := by
  intro q hq
  obtain ⟨cls, h1, h2⟩ := h (p :: q) (List.cons_prefix_cons.mpr ⟨rfl, hq⟩)
  exact ⟨cls, by rw [← hfg q, h1], h2⟩

theorem allGood_atom (T : Name → ClassInfo A) (good : Name → (List Name → Look A) → Prop) (h : CHeap A) (v : CVal A) (hv : ∀ i, v ≠ .ref i) : AllGood T good fun q => look T h q v := by
  intro path cls hp _
  obtain ⟨c, h1, _⟩ := constructed_nil hp
  cases v with
  | ref i => exact absurd rfl (hv i)
  | atom a => simp [look] at h1
  | none => simp [look] at h1

theorem construct_checked (T : Name → ClassInfo A) (n : Nat) (h : CHeap A) (cls : Name) (given : List (Name × CVal A)) (hg : ∀ q ∈ given, NewVal n h q.2) :
    AddsFrom n (construct T cls given) h fun h' j => h' = h ++ [{ cls := cls, attrs := given ++ ((T cls).derived given).map fun q => (q.1, .atom q.2) }] ∧ j = h.length ∧ (T cls).check h given = none := by
  refine AddsFrom.intro fun hl hn => ?_
  intro _ _
  unfold construct
  cases (T cls).check h given with
  | some e => exact ⟨[], by simp, by simpa using hn, fun a ha => by cases ha⟩
  | none =>
    dsimp only
    split_ifs with hfill
    · exact ⟨[], by simp, by simpa using hn, fun a ha => by cases ha⟩
    · obtain ⟨l, a, b, c⟩ := AddsFrom.alloc (n := n) (h := h) { cls := cls, attrs := given ++ ((T cls).derived given).map fun q => (q.1, .atom q.2) } (fun q hq => by
        rcases List.mem_append.mp hq with hq | hq
        · exact hg q hq
        · obtain ⟨q', _, rfl⟩ := List.mem_map.mp hq
          intro j hj
          cases hj) hl hn
      exact ⟨l, a, b, fun x hx => ⟨(c x hx).1, (c x hx).2, rfl⟩⟩

theorem lookup_not_names {f : Name → CVal A → Prop} {ps : List Name} {given : List (Name × CVal A)} (h : List.Forall₂ (fun p q => q.1 = p ∧ f p q.2) ps given) {m : Name} (hm : m ∉ ps) :
    given.lookup m = none := by
  induction h with
  | nil => rfl
  | @cons p q ps given hq _ ih =>
    obtain ⟨k, w⟩ := q
    obtain ⟨rfl, hf⟩ := hq
    have hb : (m == k) = false := by simpa using fun h => hm (by simp [h])
    simp only [List.lookup, hb]
    exact ih fun h => hm (List.mem_cons_of_mem _ h)

/-- Where cloning succeeds, all conditions are satisfied. -/
theorem cloneVal_good (T : Name → ClassInfo A) (good : Name → (List Name → Look A) → Prop) (hT : Checks T good) (n : Nat) : ∀ (k : Nat) (v : CVal A) (h : CHeap A), n ≤ h.length →
    AddsFrom n (cloneVal T k v) h fun h' w => CopyOf T n h v h' w ∧ (Closed h → Valid h v → AllGood T good fun q => look T h q v) := by
  intro k
  induction k with
  | zero =>
    intro v h _
    cases v with
    | atom a => exact AddsFrom.ret _ ⟨CopyOf.atom T n h a, fun _ _ => allGood_atom T good h _ (by simp)⟩
    | none => exact AddsFrom.ret _ ⟨CopyOf.none T n h, fun _ _ => allGood_atom T good h _ (by simp)⟩
    | ref i => exact AddsFrom.raise _ _
  | succ k ih =>
    intro v h hl
    cases v with
    | atom a => exact AddsFrom.ret _ ⟨CopyOf.atom T n h a, fun _ _ => allGood_atom T good h _ (by simp)⟩
    | none => exact AddsFrom.ret _ ⟨CopyOf.none T n h, fun _ _ => allGood_atom T good h _ (by simp)⟩
    | ref i =>
      unfold cloneVal
      refine AddsFrom.bind (AddsFrom.object i) fun l0 o _ ⟨h1, ho⟩ => ?_
      rw [h1]
      cases hp : (T o.cls).params with
      | none =>
        refine (deepcopy_adds T n (k + 1) (.ref i) h hl).mono fun l w _ hw => ⟨hw, fun _ _ path cls hpath _ => ?_⟩
        obtain ⟨c, h1, h2⟩ := constructed_nil hpath
        simp only [look, ho, Look.obj.injEq] at h1
        rw [← h1, hp] at h2
        cases h2
      | some ps =>
        dsimp only
        have heach := AddsFrom.each (n := n) (h0 := h) (fun p : Name => match o.attr p with
            | none => CM.raise .attributeError
            | some v => (cloneVal T k v).bind fun w => CM.ret (p, w))
          (fun h' p q' => q'.1 = p ∧ ∃ v, o.attr p = some v ∧ CopyOf T n h v h' q'.2 ∧ (Closed h → Valid h v → AllGood T good fun q => look T h q v))
          (fun l l' a b hn ⟨h1, v, h2, h3, h4⟩ => ⟨h1, v, h2, h3.mono hl hn, h4⟩) ps
          (fun p _ l hn => by
            cases hv : o.attr p with
            | none => exact AddsFrom.raise _ _
            | some v =>
              refine AddsFrom.bind (ih v (h ++ l) (by rw [List.length_append]; omega)) fun l1 w hn1 hw =>
                AddsFrom.ret _ ⟨rfl, v, rfl, hw.1.base hl hn, fun hc hv => ?_⟩
              have hg := hw.2 (closed_append hc hl hn) (valid_mono (by simp) hv)
              have he : (fun q => look T (h ++ l) q v) = fun q => look T h q v := funext fun q => look_append T h l hc q v hv
              rwa [he] at hg) []
        rw [List.append_nil] at heach
        refine AddsFrom.bind heach fun l given hn hF => ?_
        have hrefs : ∀ q ∈ given, NewVal n (h ++ l) q.2 := by
          intro q hq
          obtain ⟨q0, _, hq0⟩ := forall₂_right hF hq
          obtain ⟨_, v, _, h4, _⟩ := hq0
          exact h4.1
        refine AddsFrom.bind (construct_checked T n _ o.cls given hrefs) fun l2 j _ ⟨h2, hj, hck⟩ => AddsFrom.ret _ ⟨?_, ?_⟩
        · rw [h2]
          subst hj
          refine copy_object T hl hn ho rfl (by simp [settings, hp]) fun m hm => .inr ?_
          have hm' : m ∈ ps := by simpa [settings, hp] using hm
          obtain ⟨w, hw1, v, hw2, hw3, _⟩ := lookup_names (f := fun p w => ∃ v, o.attr p = some v ∧ CopyOf T n h v (h ++ l) w ∧ (Closed h → Valid h v → AllGood T good fun q => look T h q v)) hF hm'
          exact ⟨v, w, hw2, lookup_append_left hw1, hw3⟩
        · intro hc hv path cls hpath hcls
          have hstep : ∀ (p : Name) (q : List Name), look T h (p :: q) (.ref i) = if p ∈ ps then (match o.attr p with | some v => look T h q v | none => .missing) else .missing := by
            intro p q
            simp only [look, ho, settings, hp]
            rfl
          cases path with
          | nil =>
            simp only [look, ho, Look.obj.injEq] at hcls
            subst hcls
            have he : argLook T (h ++ l) o.cls given = fun q => look T h ([] ++ q) (.ref i) := by
              funext q
              cases q with
              | nil => simp [argLook, look, ho]
              | cons p rest =>
                rw [List.nil_append, hstep]
                by_cases hm : p ∈ ps
                · obtain ⟨w, hw1, v, hw2, hw3, _⟩ := lookup_names (f := fun p w => ∃ v, o.attr p = some v ∧ CopyOf T n h v (h ++ l) w ∧ (Closed h → Valid h v → AllGood T good fun q => look T h q v)) hF hm
                  rw [if_pos hm, hw2]
                  simp only [argLook, hw1]
                  exact hw3.2 hc (closed_attr hc ho hw2) rest
                · rw [if_neg hm]
                  simp only [argLook, lookup_not_names (f := fun p w => ∃ v, o.attr p = some v ∧ CopyOf T n h v (h ++ l) w ∧ (Closed h → Valid h v → AllGood T good fun q => look T h q v)) hF hm]
            rw [← he]
            exact hT _ _ _ hck
          | cons p rest =>
            have hm : p ∈ ps := by
              by_contra hm
              have h0 := (hstep p rest).symm.trans hcls
              rw [if_neg hm] at h0
              cases h0
            obtain ⟨w, hw1, v, hw2, hw3, hw4⟩ := lookup_names (f := fun p w => ∃ v, o.attr p = some v ∧ CopyOf T n h v (h ++ l) w ∧ (Closed h → Valid h v → AllGood T good fun q => look T h q v)) hF hm
            have hstep' : ∀ q, look T h (p :: q) (.ref i) = look T h q v := fun q => by rw [hstep, if_pos hm, hw2]
            have := hw4 hc (closed_attr hc ho hw2) rest cls (constructed_tail hpath hstep') ((hstep' rest).symm.trans hcls)
            have he : (fun q => look T h (p :: rest ++ q) (.ref i)) = fun q => look T h (rest ++ q) v := funext fun q => by rw [List.cons_append, hstep']
            rw [he]
            exact this

theorem cloneTop_good (T : Name → ClassInfo A) (good : Name → (List Name → Look A) → Prop) (hT : Checks T good) (n k : Nat) (v : CVal A) (h : CHeap A) (hl : n ≤ h.length) :
    AddsFrom n (cloneTop T k v) h fun _ _ => Closed h → Valid h v → AllGood T good fun q => look T h q v := by
  unfold cloneTop
  cases v with
  | atom a => exact AddsFrom.raise _ _
  | none => exact AddsFrom.raise _ _
  | ref i =>
    refine AddsFrom.bind (AddsFrom.object i) fun l0 o _ ⟨h1, ho⟩ => ?_
    rw [h1]
    cases (T o.cls).params with
    | none => exact AddsFrom.raise _ _
    | some ps =>
      refine AddsFrom.bind (cloneVal_good T good hT n k (.ref i) h hl) fun l w hn hw => ?_
      cases w with
      | ref j => exact AddsFrom.ret _ hw.2
      | atom a => exact AddsFrom.raise _ _
      | none => exact AddsFrom.raise _ _

theorem closed_snoc {h : CHeap A} (hc : Closed h) (d : CObj A) (hd : Within h.length d) : Closed (h ++ [d]) := by
  intro i p hp q hq
  by_cases hlt : i < h.length
  · rw [List.getElem?_append_left hlt] at hp
    exact valid_mono (by simp) (hc i p hp q hq)
  · rw [List.getElem?_append_right (by omega)] at hp
    have hp2 : p = d := by
      cases hk : i - h.length with
      | zero => rw [hk] at hp; simpa using hp.symm
      | succ k => rw [hk] at hp; simp at hp
    subst hp2
    cases hq2 : q.2 with
    | ref j => exact lt_of_lt_of_le (hd q hq j hq2) (by simp)
    | atom a => trivial
    | none => trivial

/-- The value that is cloned looks like the configured component. -/
theorem orDefault_look {T : Name → ClassInfo A} {h : CHeap A} {e : Nat} {r : Root} {d : CObj A} {o : CObj A} {v : CVal A} (hc : Closed h) (ho : h[e]? = some o) (ha : o.attr r.param = some v) :
    Valid (h ++ [d]) (orDefault h.length v) ∧ ∀ path, look T (h ++ [d]) path (orDefault h.length v) = lookGiven T h e r d path := by
  unfold lookGiven
  simp only [settingName_eq]
  rw [ho]
  simp only [Option.bind_some]
  rw [ha]
  cases v with
  | none => exact ⟨(by simp : h.length < (h ++ [d]).length), fun _ => rfl⟩
  | atom x => exact ⟨trivial, fun path => look_append T h [d] hc path _ trivial⟩
  | ref j => exact ⟨valid_mono (by simp) (closed_attr hc ho ha), fun path => look_append T h [d] hc path _ (closed_attr hc ho ha)⟩

theorem validate_good {T : Name → ClassInfo A} {good : Name → (List Name → Look A) → Prop} (hT : Checks T good) {limit e : Nat} {r : Root} {d : CObj A} {h h' : CHeap A} {c : Nat} (hc : Closed h)
    (he : Estimator T h e) (hd : Within h.length d) (hr : validate T limit e r d h = (h', .ok c)) : AllGood T good (lookGiven T h e r d) := by
  have hel := he.lt
  obtain ⟨⟨o, ps, ho, -, -⟩, -⟩ := he
  have ho1 : (h ++ [d])[e]? = some o := by rw [List.getElem?_append_left hel]; exact ho
  unfold Comp.validate at hr
  simp only [CM.bind, CM.alloc, CM.getAttr, CM.object, ho1] at hr
  cases ha : o.attr r.param with
  | none => rw [ha] at hr; simp [CM.raise] at hr
  | some v =>
    rw [ha] at hr
    simp only [CM.ret] at hr
    obtain ⟨hv, hlook⟩ := orDefault_look (T := T) (d := d) hc ho ha
    obtain ⟨l, a1, a2, a3⟩ := cloneTop_good T good hT (h ++ [d]).length limit (orDefault h.length v) (h ++ [d]) (le_refl _) (le_refl _) (newClosed_self _)
    cases hcl : cloneTop T limit (orDefault h.length v) (h ++ [d]) with
    | mk h1 res =>
      rw [hcl] at hr a3
      cases res with
      | error x => simp at hr
      | ok k =>
        have := a3 k rfl (closed_snoc hc d hd) hv
        rwa [show (fun q => look T (h ++ [d]) q (orDefault h.length v)) = lookGiven T h e r d from funext hlook] at this

/-- The statements of `cloneAll`, one after the other. -/
theorem cloneAll_steps {T : Name → ClassInfo A} {limit e : Nat} {dflt : Root → CObj A} {h h' : CHeap A} {c : Clones} (hc : Closed h) (he : Estimator T h e) (hd : ∀ r, Within h.length (dflt r))
    (hr : cloneAll T limit e dflt h = (h', .ok c)) (r : Root) : ∃ (g g' : CHeap A) (k : Nat), Kept T h e g ∧ validate T limit e r (dflt r) g = (g', .ok k) := by
  unfold cloneAll at hr
  simp only [CM.bind] at hr
  have k0 : Kept T h e h := ⟨Frame.refl e _ h, hc, he⟩
  cases h1e : validate T limit e .discovery (dflt .discovery) h with
  | mk h1 r1 =>
    rw [h1e] at hr
    cases r1 with
    | error x => simp at hr
    | ok rd =>
      obtain ⟨k1, -⟩ := validate_kept k0 he hc (hd _) h1e
      dsimp only at hr
      cases h2e : validate T limit e .composition (dflt .composition) h1 with
      | mk h2 r2 =>
        rw [h2e] at hr
        cases r2 with
        | error x => simp at hr
        | ok sc =>
          obtain ⟨k2, -⟩ := validate_kept k1 he hc (hd _) h2e
          dsimp only at hr
          cases h3e : validate T limit e .matching (dflt .matching) h2 with
          | mk h3 r3 =>
            rw [h3e] at hr
            cases r3 with
            | error x => simp at hr
            | ok mt =>
              obtain ⟨k3, -⟩ := validate_kept k2 he hc (hd _) h3e
              dsimp only at hr
              cases h4e : validate T limit e .logger (dflt .logger) h3 with
              | mk h4 r4 =>
                rw [h4e] at hr
                cases r4 with
                | error x => simp at hr
                | ok lg =>
                  cases r with
                  | discovery => exact ⟨h, h1, rd, k0, h1e⟩
                  | composition => exact ⟨h1, h2, sc, k1, h2e⟩
                  | matching => exact ⟨h2, h3, mt, k2, h3e⟩
                  | logger => exact ⟨h3, h4, lg, k3, h4e⟩

/-! ## C115 -/

/-- Training starts only if all components, at every depth, satisfy the conditions that their constructors check, however the settings were made (by constructors, `set_params`, `SupRBWrapper` or assignments). -/
theorem C115_conditions (T : Name → ClassInfo A) (good : Name → (List Name → Look A) → Prop) (hT : Checks T good) (limit e : Nat) (dflt : Root → CObj A) (h h' : CHeap A) (c : Clones) (hc : Closed h)
    (he : Estimator T h e) (hd : ∀ r, Within h.length (dflt r)) (hr : cloneAll T limit e dflt h = (h', .ok c)) (r : Root) : AllGood T good (lookGiven T h e r (dflt r)) := by
  obtain ⟨g, g', k, hk, hv⟩ := cloneAll_steps hc he hd hr r
  have := validate_good hT hk.closed hk.est (fun q hq j hj => lt_of_lt_of_le (hd r q hq j hj) hk.frame.len) hv
  rwa [show lookGiven T g e r (dflt r) = lookGiven T h e r (dflt r) from funext fun path => lookGiven_frame hk.frame he hc hk.closed r (dflt r) (hd r) path] at this

/-- Otherwise `fit` raises an exception before it trains anything: nothing of the training happens, whatever it would be, and the components are as before (C112). -/
theorem C115_raises (T : Name → ClassInfo A) (good : Name → (List Name → Look A) → Prop) (hT : Checks T good) (limit e : Nat) (dflt : Root → CObj A) (b : A) (start : List (Name × A)) (training : List (Write A)) (h : CHeap A)
    (hc : Closed h) (he : Estimator T h e) (hd : ∀ r, Within h.length (dflt r)) (r : Root) (hbad : ¬ AllGood T good (lookGiven T h e r (dflt r))) :
    (∃ x, (fitObjects T limit e dflt b start training h).2 = .error x) ∧ fitObjects T limit e dflt b start training h = fitObjects T limit e dflt b start [] h := by
  have hstart : Confined e h.length (fun _ => False) (CM.forAll (fun q : Name × A => (Write.own q.1 q.2).run e ⟨0, 0, 0, 0⟩) start) h fun _ _ _ => True := by
    refine Confined.forAll (fun _ => True) (fun _ _ _ _ => trivial) start (fun q _ P h _ => ?_) (fun _ => False) h trivial
    dsimp only [Write.run]
    split_ifs with hq
    · exact Confined.setOwn q.1 _ hq (fun _ hj => by cases hj)
    · exact Confined.raise _ _
  obtain ⟨k, -⟩ := Kept.step ⟨Frame.refl e _ h, hc, he⟩ hstart he.lt
  unfold fitObjects
  simp only [CM.bind]
  generalize hs : CM.forAll (fun q : Name × A => (Write.own q.1 q.2).run e ⟨0, 0, 0, 0⟩) start h = s at k ⊢
  obtain ⟨h1, res⟩ := s
  cases res with
  | error x => exact ⟨⟨x, rfl⟩, rfl⟩
  | ok u =>
    dsimp only at k ⊢
    unfold setup
    simp only [CM.bind]
    cases hcl : cloneAll T limit e dflt h1 with
    | mk h2 rc =>
      cases rc with
      | error x => exact ⟨⟨x, rfl⟩, rfl⟩
      | ok c =>
        refine absurd ?_ hbad
        have hd1 : ∀ r, Within h1.length (dflt r) := fun r q hq j hj => lt_of_lt_of_le (hd r q hq j hj) k.frame.len
        have := C115_conditions T good hT limit e dflt h1 h2 c k.closed k.est hd1 hcl r
        rwa [show lookGiven T h1 e r (dflt r) = lookGiven T h e r (dflt r) from funext fun path => lookGiven_frame k.frame he hc k.closed r (dflt r) (hd r) path] at this

/-! ## C116 -/

/-- The constructors reject nothing else. -/
def ChecksOnly (T : Name → ClassInfo A) (good : Name → (List Name → Look A) → Prop) : Prop :=
  ∀ (cls : Name) (h : CHeap A) (given : List (Name × CVal A)), good cls (argLook T h cls given) → (T cls).check h given = none

/-- All components are as their constructors leave them: every parameter is an attribute, no parameter with a default object is `None`, and the condition of the class is satisfied. -/
def Acceptable (T : Name → ClassInfo A) (good : Name → (List Name → Look A) → Prop) (f : List Name → Look A) : Prop :=
  ∀ path cls ps, Constructed T f path → f path = .obj cls → (T cls).params = some ps →
    (∀ p ∈ ps, f (path ++ [p]) ≠ .missing) ∧ (∀ p ∈ ps, p ∈ (T cls).fill → f (path ++ [p]) ≠ .none) ∧ good cls fun q => f (path ++ q)

/-- The objects are nested at most `k` deep, and the object `e` is not among them. -/
def Nested (e : Nat) (h : CHeap A) : Nat → CVal A → Prop
  | _, .atom _ => True
  | _, .none => True
  | 0, .ref _ => False
  | k + 1, .ref i => i ≠ e ∧ ∃ o, h[i]? = some o ∧ ∀ q ∈ o.attrs, Nested e h k q.2

theorem nested_congr {e : Nat} {h h' : CHeap A} (hh : ∀ (i : Nat) (o : CObj A), i ≠ e → h[i]? = some o → h'[i]? = some o) : ∀ (k : Nat) (v : CVal A), Nested e h k v → Nested e h' k v := by
  intro k
  induction k with
  | zero => intro v hv; cases v <;> simp_all [Nested]
  | succ k ih =>
    intro v hv
    cases v with
    | atom a => trivial
    | none => trivial
    | ref i =>
      obtain ⟨hi, o, ho, hq⟩ := hv
      exact ⟨hi, o, hh i o hi ho, fun q hqm => ih q.2 (hq q hqm)⟩

theorem nested_append {e : Nat} {h : CHeap A} (l : CHeap A) (k : Nat) (v : CVal A) (hv : Nested e h k v) : Nested e (h ++ l) k v := by
  refine nested_congr (fun i o _ ho => ?_) k v hv
  have hi : i < h.length := by
    by_contra hi
    rw [List.getElem?_eq_none (by omega)] at ho
    cases ho
  rw [List.getElem?_append_left hi]
  exact ho

theorem bind_ok {m : CM A α} {f : α → CM A β} {h h' : CHeap A} {a : α} (hm : m h = (h', .ok a)) : (m.bind f) h = f a h' := by
  simp only [CM.bind, hm]

theorem each_succeeds (f : α → CM A β) (h0 : CHeap A) (P : CHeap A → Prop) : ∀ (xs : List α), (∀ x ∈ xs, ∀ l, P (h0 ++ l) → ∃ l' b, f x (h0 ++ l) = (h0 ++ l ++ l', .ok b) ∧ P (h0 ++ l ++ l')) →
    ∀ l, P (h0 ++ l) → ∃ l' bs, CM.each f xs (h0 ++ l) = (h0 ++ l ++ l', .ok bs) := by
  intro xs
  induction xs with
  | nil => intro _ l _; exact ⟨[], [], by simp [CM.each, CM.ret]⟩
  | cons x xs ih =>
    intro hf l hl
    obtain ⟨l1, b, h1, hp⟩ := hf x (by simp) l hl
    rw [List.append_assoc] at hp
    obtain ⟨l2, bs, h2⟩ := ih (fun y hy => hf y (List.mem_cons_of_mem _ hy)) (l ++ l1) hp
    refine ⟨l1 ++ l2, b :: bs, ?_⟩
    rw [← List.append_assoc] at h2
    simp only [CM.each, CM.bind, h1, h2, CM.ret]
    rw [List.append_assoc (h0 ++ l)]

theorem cloneVal_closed {T : Name → ClassInfo A} {k : Nat} {v : CVal A} {h h' : CHeap A} {r : Except PyErr (CVal A)} (hc : Closed h) (hr : cloneVal T k v h = (h', r)) : Closed h' := by
  obtain ⟨l, a1, a2, -⟩ := cloneVal_adds T h.length k v h (le_refl _) (le_refl _) (newClosed_self _)
  rw [hr] at a1
  dsimp only at a1
  rw [a1]
  exact closed_append hc (le_refl _) a2

theorem deepcopy_succeeds (e : Nat) : ∀ (k : Nat) (v : CVal A) (h : CHeap A), Nested e h k v → ∃ l w, deepcopy k v h = (h ++ l, .ok w) := by
  intro k
  induction k with
  | zero => intro v h hv; cases v with
    | atom a => exact ⟨[], .atom a, by simp [deepcopy, CM.ret]⟩
    | none => exact ⟨[], .none, by simp [deepcopy, CM.ret]⟩
    | ref i => exact hv.elim
  | succ k ih =>
    intro v h hv
    cases v with
    | atom a => exact ⟨[], .atom a, by simp [deepcopy, CM.ret]⟩
    | none => exact ⟨[], .none, by simp [deepcopy, CM.ret]⟩
    | ref i =>
      obtain ⟨_, o, ho, hq⟩ := hv
      obtain ⟨l, attrs, hl⟩ := each_succeeds (fun q : Name × CVal A => (deepcopy k q.2).bind fun v => CM.ret (q.1, v)) h (fun _ => True) o.attrs (fun q hqm l _ => by
        obtain ⟨l', w, hw⟩ := ih q.2 (h ++ l) (nested_append l k q.2 (hq q hqm))
        exact ⟨l', (q.1, w), by simp only [CM.bind, hw, CM.ret], trivial⟩) [] trivial
      rw [List.append_nil] at hl
      exact ⟨l ++ [{ cls := o.cls, attrs := attrs }], .ref (h ++ l).length, by simp only [deepcopy, CM.bind, CM.object, ho, hl, CM.alloc, CM.ret, List.append_assoc]⟩

theorem acceptable_attr {T : Name → ClassInfo A} {good : Name → (List Name → Look A) → Prop} {f g : List Name → Look A} {cls : Name} {p : Name} (hf : Acceptable T good f) (h0 : f [] = .obj cls)
    (hp : (T cls).params.isSome) (hfg : ∀ q, f (p :: q) = g q) : Acceptable T good g := by
  intro path cls' ps hpath hcls hps
  have hc : Constructed T f (p :: path) := by
    intro q hq
    cases q with
    | nil => exact ⟨cls, h0, hp⟩
    | cons a q =>
      obtain ⟨rfl, hq'⟩ := List.cons_prefix_cons.mp hq
      obtain ⟨c, h1, h2⟩ := hpath q hq'
      exact ⟨c, by rw [hfg, h1], h2⟩
  obtain ⟨h1, h2, h3⟩ := hf (p :: path) cls' ps hc (by rw [hfg, hcls]) hps
  refine ⟨fun a ha => ?_, fun a ha hb => ?_, ?_⟩
  · have := h1 a ha
    rwa [List.cons_append, hfg] at this
  · have := h2 a ha hb
    rwa [List.cons_append, hfg] at this
  · rwa [show (fun q => f (p :: path ++ q)) = fun q => g (path ++ q) from funext fun q => by rw [List.cons_append, hfg]] at h3

theorem cloneVal_succeeds (T : Name → ClassInfo A) (good : Name → (List Name → Look A) → Prop) (hT : ChecksOnly T good) (e : Nat) : ∀ (k : Nat) (v : CVal A) (h : CHeap A), Closed h → Valid h v → Nested e h k v →
    Acceptable T good (fun q => look T h q v) → ∃ l w, cloneVal T k v h = (h ++ l, .ok w) := by
  intro k
  induction k with
  | zero => intro v h _ _ hv _; cases v with
    | atom a => exact ⟨[], .atom a, by simp [cloneVal, CM.ret]⟩
    | none => exact ⟨[], .none, by simp [cloneVal, CM.ret]⟩
    | ref i => exact hv.elim
  | succ k ih =>
    intro v h hc hval hv hacc
    cases v with
    | atom a => exact ⟨[], .atom a, by simp [cloneVal, CM.ret]⟩
    | none => exact ⟨[], .none, by simp [cloneVal, CM.ret]⟩
    | ref i =>
      have hv' := hv
      obtain ⟨_, o, ho, hq⟩ := hv
      unfold cloneVal
      simp only [CM.bind, CM.object, ho]
      cases hp : (T o.cls).params with
      | none => exact deepcopy_succeeds e (k + 1) (.ref i) h hv'
      | some ps =>
        dsimp only
        have h0 : look T h [] (.ref i) = .obj o.cls := by simp only [look, ho]
        have hcon : Constructed T (fun q => look T h q (.ref i)) [] := by
          intro q hq
          rw [List.prefix_nil.mp hq]
          exact ⟨o.cls, h0, by rw [hp]; rfl⟩
        have hstep : ∀ (p : Name) (q : List Name), look T h (p :: q) (.ref i) = if p ∈ ps then (match o.attr p with | some v => look T h q v | none => .missing) else .missing := by
          intro p q
          simp only [look, ho, settings, hp]
          rfl
        obtain ⟨hmiss, hfill, hgood⟩ := hacc [] o.cls ps hcon h0 hp
        have hattr : ∀ p ∈ ps, ∃ v, o.attr p = some v := by
          intro p hpm
          have := hmiss p hpm
          cases ha : o.attr p with
          | some v => exact ⟨v, rfl⟩
          | none => exact absurd ((hstep p []).trans (by rw [if_pos hpm, ha])) this
        obtain ⟨l, given, hl⟩ := each_succeeds (fun p : Name => match o.attr p with
            | none => CM.raise .attributeError
            | some v => (cloneVal T k v).bind fun w => CM.ret (p, w)) h Closed ps (fun p hpm l hcl => by
          obtain ⟨v, hav⟩ := hattr p hpm
          have hstep' : ∀ q, look T h (p :: q) (.ref i) = look T h q v := fun q => by rw [hstep, if_pos hpm, hav]
          have hvv := closed_attr hc ho hav
          have hacc' : Acceptable T good fun q => look T (h ++ l) q v := by
            rw [show (fun q => look T (h ++ l) q v) = fun q => look T h q v from funext fun q => look_append T h l hc q v hvv]
            exact acceptable_attr hacc h0 (by rw [hp]; rfl) hstep'
          obtain ⟨l', w, hw⟩ := ih v (h ++ l) hcl (valid_mono (by simp) hvv) (nested_append l k v (hq (p, v) (lookup_mem hav))) hacc'
          exact ⟨l', (p, w), by simp only [hav, CM.bind, hw, CM.ret], cloneVal_closed hcl hw⟩) [] (by rwa [List.append_nil])
        rw [List.append_nil] at hl
        have heach := AddsFrom.each (n := h.length) (h0 := h) (fun p : Name => match o.attr p with
            | none => CM.raise .attributeError
            | some v => (cloneVal T k v).bind fun w => CM.ret (p, w))
          (fun h' p q' => q'.1 = p ∧ ∃ v, o.attr p = some v ∧ CopyOf T h.length h v h' q'.2)
          (fun l l' a b hn ⟨h1, v, h2, h3⟩ => ⟨h1, v, h2, h3.mono (le_refl _) hn⟩) ps
          (fun p _ l hn => by
            cases hv : o.attr p with
            | none => exact AddsFrom.raise _ _
            | some v =>
              exact AddsFrom.bind (cloneVal_adds T h.length k v (h ++ l) (by rw [List.length_append]; omega)) fun l1 w hn1 hw =>
                AddsFrom.ret _ ⟨rfl, v, rfl, hw.base (le_refl _) hn⟩) []
        rw [List.append_nil] at heach
        obtain ⟨l1, a1, a2, a3⟩ := heach (le_refl _) (newClosed_self _)
        rw [hl] at a1 a3
        dsimp only at a1 a3
        obtain rfl : l = l1 := List.append_cancel_left a1
        have hF := a3 given rfl
        have hnames : ∀ p ∈ ps, ∃ w, given.lookup p = some w ∧ ∃ v, o.attr p = some v ∧ CopyOf T h.length h v (h ++ l) w := fun p hpm =>
          lookup_names (f := fun p w => ∃ v, o.attr p = some v ∧ CopyOf T h.length h v (h ++ l) w) hF hpm
        have harg : argLook T (h ++ l) o.cls given = fun q => look T h q (.ref i) := by
          funext q
          cases q with
          | nil => simp [argLook, look, ho]
          | cons p rest =>
            rw [hstep]
            by_cases hm : p ∈ ps
            · obtain ⟨w, hw1, v, hw2, hw3⟩ := hnames p hm
              rw [if_pos hm, hw2]
              simp only [argLook, hw1]
              exact hw3.2 hc (closed_attr hc ho hw2) rest
            · rw [if_neg hm]
              simp only [argLook, lookup_not_names (f := fun p w => ∃ v, o.attr p = some v ∧ CopyOf T h.length h v (h ++ l) w) hF hm]
        have hck : (T o.cls).check (h ++ l) given = none := hT _ _ _ (by rw [harg]; exact hgood)
        have hnone : (given.any fun q => decide (q.1 ∈ (T o.cls).fill) && q.2.isNone) = false := by
          rw [List.any_eq_false]
          intro q hqm hb
          rw [Bool.and_eq_true, decide_eq_true_eq] at hb
          obtain ⟨p, hpm, rfl, v, hw2, hw3⟩ := forall₂_right hF hqm
          have hlook := hw3.2 hc (closed_attr hc ho hw2) []
          cases hq2 : q.2 with
          | none =>
            rw [hq2] at hlook
            refine hfill q.1 hpm hb.1 ?_
            change look T h [q.1] (.ref i) = _
            rw [hstep, if_pos hpm, hw2]
            dsimp only
            rw [← hlook]
            rfl
          | atom a => rw [hq2] at hb; cases hb.2
          | ref j => rw [hq2] at hb; cases hb.2
        have hcons : construct T o.cls given (h ++ l) = (h ++ l ++ [{ cls := o.cls, attrs := given ++ ((T o.cls).derived given).map fun q => (q.1, .atom q.2) }], .ok (h ++ l).length) := by
          unfold construct
          rw [hck]
          exact if_neg (by rw [hnone]; simp)
        refine ⟨l ++ [{ cls := o.cls, attrs := given ++ ((T o.cls).derived given).map fun q => (q.1, .atom q.2) }], .ref (h ++ l).length, ?_⟩
        refine (bind_ok hl).trans ((bind_ok hcons).trans ?_)
        rw [List.append_assoc]
        rfl

theorem cloneTop_succeeds (T : Name → ClassInfo A) (good : Name → (List Name → Look A) → Prop) (hT : ChecksOnly T good) (e k : Nat) (v : CVal A) (h : CHeap A) (hc : Closed h) (hv : Valid h v) (hn : Nested e h k v)
    (hacc : Acceptable T good fun q => look T h q v) (hroot : Constructed T (fun q => look T h q v) []) : ∃ l j, cloneTop T k v h = (h ++ l, .ok j) := by
  obtain ⟨cls, h1, h2⟩ := constructed_nil hroot
  cases v with
  | atom a => simp [look] at h1
  | none => simp [look] at h1
  | ref i =>
    cases ho : h[i]? with
    | none => simp [look, ho] at h1
    | some o =>
      simp only [look, ho, Look.obj.injEq] at h1
      subst h1
      obtain ⟨l, w, hw⟩ := cloneVal_succeeds T good hT e k (.ref i) h hc hv hn hacc
      obtain ⟨_, a1, a2, a3⟩ := cloneVal_adds T h.length k (.ref i) h (le_refl _) (le_refl _) (newClosed_self _)
      rw [hw] at a1 a3
      have hlook := (a3 w rfl).2 hc hv []
      rw [← a1] at hlook
      unfold cloneTop
      simp only [CM.bind, CM.object, ho]
      cases hp : (T o.cls).params with
      | none => rw [hp] at h2; cases h2
      | some ps =>
        dsimp only
        cases w with
        | ref j => exact ⟨l, j, (bind_ok hw).trans rfl⟩
        | atom a => simp [look, ho] at hlook
        | none => simp [look, ho] at hlook

theorem validate_succeeds {T : Name → ClassInfo A} {good : Name → (List Name → Look A) → Prop} (hT : ChecksOnly T good) {limit e : Nat} {r : Root} {d : CObj A} {h : CHeap A} {o : CObj A} {v : CVal A} (hc : Closed h)
    (ho : h[e]? = some o) (ha : o.attr r.param = some v) (hd : Within h.length d) (hn : Nested e (h ++ [d]) limit (orDefault h.length v)) (hacc : Acceptable T good (lookGiven T h e r d))
    (hroot : Constructed T (lookGiven T h e r d) []) : ∃ h' c, validate T limit e r d h = (h', .ok c) := by
  have hel : e < h.length := by
    by_contra hi
    rw [List.getElem?_eq_none (by omega)] at ho
    cases ho
  have ho1 : (h ++ [d])[e]? = some o := by rw [List.getElem?_append_left hel]; exact ho
  obtain ⟨hv, hlook⟩ := orDefault_look (T := T) (d := d) hc ho ha
  have hl : (fun q => look T (h ++ [d]) q (orDefault h.length v)) = lookGiven T h e r d := funext hlook
  obtain ⟨l, j, hj⟩ := cloneTop_succeeds T good hT e limit (orDefault h.length v) (h ++ [d]) (closed_snoc hc d hd) hv hn (by rw [hl]; exact hacc) (by rw [hl]; exact hroot)
  refine ⟨(CM.setAttr e r.attr (.ref j) (h ++ [d] ++ l)).1, j, ?_⟩
  unfold Comp.validate
  refine (bind_ok (a := h.length) (h' := h ++ [d]) rfl).trans ((bind_ok (a := v) (h' := h ++ [d]) ?_).trans ((bind_ok hj).trans ((bind_ok (a := ()) rfl).trans rfl)))
  unfold CM.getAttr
  refine (bind_ok (a := o) (h' := h ++ [d]) ?_).trans ?_
  · simp only [CM.object, ho1]
  · rw [ha]
    rfl

/-- The component configured for `r` has the given depth at most and does not contain the estimator. -/
def RootNested (limit e : Nat) (d : CObj A) (h : CHeap A) (r : Root) : Prop :=
  ∃ o v, h[e]? = some o ∧ o.attr (settingName r) = some v ∧ Nested e (h ++ [d]) limit (orDefault h.length v)

theorem nested_default {e : Nat} {h h' : CHeap A} (he : e < h.length) (f : Frame e (fun _ => False) h h') {d : CObj A} {limit : Nat} {v : CVal A} (hd : Within h.length d) (hc : Closed h) (hv : Valid h v)
    (hn : Nested e (h ++ [d]) limit (orDefault h.length v)) : Nested e (h' ++ [d]) limit (orDefault h'.length v) := by
  have hold : ∀ (k : Nat) (w : CVal A), Valid h w → Nested e (h ++ [d]) k w → Nested e (h' ++ [d]) k w := by
    intro k
    induction k with
    | zero => intro w _ hw; cases w <;> simp_all [Nested]
    | succ k ih =>
      intro w hwv hw
      cases w with
      | atom a => trivial
      | none => trivial
      | ref i =>
        obtain ⟨hi, o, ho, hq⟩ := hw
        have hil : i < h.length := hwv
        rw [List.getElem?_append_left hil] at ho
        refine ⟨hi, o, ?_, fun q hqm => ih q.2 (hc i o ho q hqm) (hq q hqm)⟩
        rw [List.getElem?_append_left (lt_of_lt_of_le hil f.len), f.other i hil id hi]
        exact ho
  cases v with
  | atom a => cases limit <;> trivial
  | ref i => exact hold limit (.ref i) hv hn
  | none =>
    cases limit with
    | zero => exact hn.elim
    | succ k =>
      obtain ⟨_, o, ho, hq⟩ := hn
      have ho2 : o = d := by simpa using ho.symm
      subst ho2
      refine ⟨by have := f.len; show h'.length ≠ e; omega, o, by simp, fun q hqm => hold k q.2 ?_ (hq q hqm)⟩
      cases hq2 : q.2 with
      | ref j => exact hd q hqm j hq2
      | atom a => trivial
      | none => trivial

theorem validate_kept_succeeds {T : Name → ClassInfo A} {good : Name → (List Name → Look A) → Prop} (hT : ChecksOnly T good) {limit e : Nat} {h0 h : CHeap A} {r : Root} {d : CObj A} (k : Kept T h0 e h) (he0 : Estimator T h0 e)
    (hc0 : Closed h0) (hd : Within h0.length d) (hn : RootNested limit e d h0 r) (hacc : Acceptable T good (lookGiven T h0 e r d)) (hroot : Constructed T (lookGiven T h0 e r d) []) :
    ∃ h' c, validate T limit e r d h = (h', .ok c) ∧ Kept T h0 e h' := by
  obtain ⟨o, v, ho, ha, hnest⟩ := hn
  rw [settingName_eq] at ha
  obtain ⟨o', ho', _, hattr⟩ := k.frame.own o ho
  have hl : lookGiven T h e r d = lookGiven T h0 e r d := funext fun path => lookGiven_frame k.frame he0 hc0 k.closed r d hd path
  obtain ⟨h', c, hv⟩ := validate_succeeds hT k.closed ho' (by rw [hattr _ (root_param r)]; exact ha) (fun q hq j hj => lt_of_lt_of_le (hd q hq j hj) k.frame.len)
    (nested_default he0.lt k.frame hd hc0 (closed_attr hc0 ho ha) hnest) (by rw [hl]; exact hacc) (by rw [hl]; exact hroot)
  exact ⟨h', c, hv, (validate_kept k he0 hc0 hd hv).1⟩

/-- C116 for models whose components are as their constructors leave them, i.e. satisfy the conditions of their classes: `fit` can clone all of them. Missing for the full claim: settings changed with `set_params`, which are not checked when they are
made (`C116_set_params_refuted`, `C116_none_refuted`), and the setters of `matching_type` that `fit` calls afterwards (C96). -/
theorem C116_accepted_partial (T : Name → ClassInfo A) (good : Name → (List Name → Look A) → Prop) (hT : ChecksOnly T good) (limit e : Nat) (dflt : Root → CObj A) (h : CHeap A) (hc : Closed h) (he : Estimator T h e)
    (hd : ∀ r, Within h.length (dflt r)) (hn : ∀ r, RootNested limit e (dflt r) h r) (hroot : ∀ r, Constructed T (lookGiven T h e r (dflt r)) []) (hacc : ∀ r, Acceptable T good (lookGiven T h e r (dflt r))) :
    ∃ h' c, cloneAll T limit e dflt h = (h', .ok c) := by
  obtain ⟨h1, c1, v1, k1⟩ := validate_kept_succeeds hT ⟨Frame.refl e _ h, hc, he⟩ he hc (hd .discovery) (hn _) (hacc _) (hroot _)
  obtain ⟨h2, c2, v2, k2⟩ := validate_kept_succeeds hT k1 he hc (hd .composition) (hn _) (hacc _) (hroot _)
  obtain ⟨h3, c3, v3, k3⟩ := validate_kept_succeeds hT k2 he hc (hd .matching) (hn _) (hacc _) (hroot _)
  obtain ⟨h4, c4, v4, k4⟩ := validate_kept_succeeds hT k3 he hc (hd .logger) (hn _) (hacc _) (hroot _)
  exact ⟨h4, ⟨c1, c2, c3, c4⟩, (bind_ok v1).trans ((bind_ok v2).trans ((bind_ok v3).trans ((bind_ok v4).trans rfl)))⟩

/-- What a constructor accepts is acceptable, if its arguments are. -/
theorem C116_constructed (T : Name → ClassInfo A) (good : Name → (List Name → Look A) → Prop) (hT : Checks T good) (h h' : CHeap A) (hc : Closed h) (cls : Name) (ps : List Name) (hps : (T cls).params = some ps) (given : List (Name × CVal A))
    (hnames : given.map Prod.fst = ps) (hgiven : ∀ q ∈ given, Valid h q.2 ∧ Acceptable T good fun p => look T h p q.2) (j : Nat) (hr : construct T cls given h = (h', .ok j)) :
    Acceptable T good fun p => look T h' p (.ref j) := by
  unfold construct at hr
  cases hck : (T cls).check h given with
  | some x => rw [hck] at hr; simp at hr
  | none =>
    rw [hck] at hr
    dsimp only at hr
    by_cases hf : (given.any fun q => decide (q.1 ∈ (T cls).fill) && q.2.isNone) = true
    · rw [if_pos hf] at hr; simp at hr
    · rw [if_neg hf] at hr
      simp only [CM.alloc, Prod.mk.injEq, Except.ok.injEq] at hr
      obtain ⟨rfl, rfl⟩ := hr
      set o : CObj A := { cls := cls, attrs := given ++ ((T cls).derived given).map fun q => (q.1, .atom q.2) } with ho
      have hget : (h ++ [o])[h.length]? = some o := by simp
      have hlk : ∀ p ∈ ps, ∃ v, given.lookup p = some v ∧ (p, v) ∈ given := by
        intro p hp
        rw [← hnames] at hp
        obtain ⟨q, hq, rfl⟩ := List.mem_map.mp hp
        cases hl : given.lookup q.1 with
        | none => exact absurd hl (by rw [List.lookup_eq_none_iff]; intro hall; exact absurd (hall q hq) (by simp))
        | some v => exact ⟨v, rfl, lookup_mem hl⟩
      have hstep : ∀ (p : Name) (v : CVal A), given.lookup p = some v → p ∈ ps → ∀ q, look T (h ++ [o]) (p :: q) (.ref h.length) = look T h q v := by
        intro p v hv hp q
        have hset : p ∈ settings T o := by simp only [settings, show o.cls = cls from rfl, hps]; exact hp
        have hat : o.attr p = some v := lookup_append_left hv
        simp only [look, hget]
        rw [if_pos hset, hat]
        exact look_append T h _ hc q v (hgiven _ (lookup_mem hv)).1
      have hnot : ∀ (p : Name), p ∉ ps → ∀ q, look T (h ++ [o]) (p :: q) (.ref h.length) = .missing := by
        intro p hp q
        have hset : p ∉ settings T o := by simp only [settings, show o.cls = cls from rfl, hps]; exact hp
        simp only [look, hget]
        rw [if_neg hset]
      intro path cls' ps' hpath hcls hps'
      cases path with
      | nil =>
        simp only [look, hget, Look.obj.injEq] at hcls
        obtain rfl : cls = cls' := hcls
        rw [hps] at hps'
        obtain rfl : ps = ps' := Option.some.inj hps'
        refine ⟨fun p hp => ?_, fun p hp hfill => ?_, ?_⟩
        · obtain ⟨v, hv, hm⟩ := hlk p hp
          change look T (h ++ [o]) (p :: []) (.ref h.length) ≠ _
          rw [hstep p v hv hp]
          have := (hgiven _ hm).1
          cases v with
          | atom a => simp [look]
          | none => simp [look]
          | ref i =>
            have hi : i < h.length := this
            simp [look, List.getElem?_eq_getElem hi]
        · obtain ⟨v, hv, hm⟩ := hlk p hp
          change look T (h ++ [o]) (p :: []) (.ref h.length) ≠ _
          rw [hstep p v hv hp]
          have hnn : v.isNone ≠ true := by
            intro hn
            exact hf (List.any_eq_true.mpr ⟨_, hm, by simp [hfill, hn]⟩)
          have := (hgiven _ hm).1
          cases v with
          | atom a => simp [look]
          | none => exact absurd rfl hnn
          | ref i =>
            have hi : i < h.length := this
            simp [look, List.getElem?_eq_getElem hi]
        · have he : (fun q => look T (h ++ [o]) ([] ++ q) (.ref h.length)) = argLook T h cls given := by
            funext q
            cases q with
            | nil => simp [argLook, look, ho]
            | cons p rest =>
              rw [List.nil_append]
              by_cases hp : p ∈ ps
              · obtain ⟨v, hv, hm⟩ := hlk p hp
                rw [hstep p v hv hp]
                simp only [argLook, hv]
              · rw [hnot p hp]
                have : given.lookup p = none := by
                  rw [List.lookup_eq_none_iff]
                  intro q hq
                  simpa using fun hpq => hp (by rw [← hnames, hpq]; exact List.mem_map_of_mem hq)
                simp only [argLook, this]
          rw [he]
          exact hT _ _ _ hck
      | cons p rest =>
        have hp : p ∈ ps := by
          by_contra hp
          have h0 := (hnot p hp rest).symm.trans hcls
          cases h0
        obtain ⟨v, hv, hm⟩ := hlk p hp
        have hstep' := hstep p v hv hp
        have := (hgiven _ hm).2 rest cls' ps' (constructed_tail hpath hstep') ((hstep' rest).symm.trans hcls) hps'
        simpa only [List.cons_append, hstep'] using this

/-! ## The conditions in the code -/

/-- The conditions of the classes, in terms of their settings: with the operator `&`, `delay` and `n_iter` of the evolution strategy are numbers with `delay < n_iter`; for novelty search `k_neighbor + 2 < lmbda`. -/
def suprbGood (cls : Name) (f : List Name → Look PVal) : Prop :=
  (cls = "ES1xLambda" → f ["operator"] = .atom (.str "&") → ∃ a b, f ["delay"] = .atom (.num a) ∧ f ["n_iter"] = .atom (.num b) ∧ a < b) ∧
  (cls = "NoveltySearch" → ∃ l, f ["lmbda"] = .atom (.num l) ∧ ∀ k, f ["novelty_calculation", "k_neighbor"] = .atom (.num k) → k + 2 < l)

theorem look_atom {T : Name → ClassInfo A} {h : CHeap A} {v : CVal A} {a : A} (hv : look T h [] v = .atom a) : v = .atom a := by
  cases v with
  | atom x => simpa [look] using hv
  | none => simp [look] at hv
  | ref i => cases ho : h[i]? <;> simp [look, ho] at hv

theorem argLook_atom {T : Name → ClassInfo A} {h : CHeap A} {cls : Name} {given : List (Name × CVal A)} {n : Name} {a : A} : argLook T h cls given [n] = .atom a ↔ given.lookup n = some (.atom a) := by
  constructor
  · intro hl
    simp only [argLook] at hl
    cases hg : given.lookup n with
    | none => rw [hg] at hl; cases hl
    | some v => rw [hg] at hl; exact congrArg some (look_atom hl)
  · intro hl
    simp only [argLook, hl, look]

theorem suprb_checks : Checks suprbClasses suprbGood := by
  intro cls h given hck
  constructor
  · rintro rfl hop
    have hck : esCheck given = none := hck
    rw [argLook_atom] at hop
    unfold esCheck at hck
    rw [if_pos hop] at hck
    split at hck
    · rename_i a b hd hn
      split_ifs at hck with hab
      exact ⟨a, b, argLook_atom.mpr hd, argLook_atom.mpr hn, hab⟩
    · cases hck
  · rintro rfl
    have hck : nsCheck h given = none := hck
    unfold nsCheck at hck
    split at hck
    · rename_i i hi
      split at hck
      · rename_i k hk
        split at hck
        · rename_i l hl
          split_ifs at hck with hkl
          refine ⟨l, argLook_atom.mpr hl, fun k' hk' => ?_⟩
          simp only [argLook, hi, look] at hk'
          cases ho : h[i]? with
          | none => rw [ho] at hk'; cases hk'
          | some o =>
            rw [ho] at hk hk'
            simp only [Option.bind_some] at hk hk'
            split_ifs at hk' with hs
            rw [hk] at hk'
            simp only [look, Look.atom.injEq, PVal.num.injEq] at hk'
            rw [← hk']
            exact hkl
        · cases hck
      · cases hck
      · cases hck
    · cases hck

/-- An evolution strategy with the operator `&` and a delay that is not smaller than its number of iterations is never used for training. -/
theorem C115_evolution_strategy (limit e : Nat) (dflt : Root → CObj PVal) (b : PVal) (start : List (Name × PVal)) (training : List (Write PVal)) (h : CHeap PVal) (hc : Closed h) (he : Estimator suprbClasses h e)
    (hd : ∀ r, Within h.length (dflt r)) (hcls : lookGiven suprbClasses h e .discovery (dflt .discovery) [] = .obj "ES1xLambda")
    (hop : lookGiven suprbClasses h e .discovery (dflt .discovery) ["operator"] = .atom (.str "&")) (delay iter : ℚ) (hdelay : lookGiven suprbClasses h e .discovery (dflt .discovery) ["delay"] = .atom (.num delay))
    (hiter : lookGiven suprbClasses h e .discovery (dflt .discovery) ["n_iter"] = .atom (.num iter)) (hbad : iter ≤ delay) :
    ∃ x, (fitObjects suprbClasses limit e dflt b start training h).2 = .error x := by
  refine (C115_raises suprbClasses suprbGood suprb_checks limit e dflt b start training h hc he hd .discovery fun hgood => ?_).1
  obtain ⟨h1, -⟩ := hgood [] "ES1xLambda" (fun p hp => ⟨"ES1xLambda", by rw [List.prefix_nil.mp hp]; exact hcls, rfl⟩) hcls
  obtain ⟨a, c, h2, h3, h4⟩ := h1 rfl hop
  have e2 := hdelay.symm.trans h2
  have e3 := hiter.symm.trans h3
  cases e2
  cases e3
  exact absurd h4 (not_lt.mpr hbad)

/-- Novelty search with too many neighbours for its number of parents is never used for training. -/
theorem C115_novelty_search (limit e : Nat) (dflt : Root → CObj PVal) (b : PVal) (start : List (Name × PVal)) (training : List (Write PVal)) (h : CHeap PVal) (hc : Closed h) (he : Estimator suprbClasses h e)
    (hd : ∀ r, Within h.length (dflt r)) (hcls : lookGiven suprbClasses h e .discovery (dflt .discovery) [] = .obj "NoveltySearch") (k lmbda : ℚ)
    (hk : lookGiven suprbClasses h e .discovery (dflt .discovery) ["novelty_calculation", "k_neighbor"] = .atom (.num k)) (hl : lookGiven suprbClasses h e .discovery (dflt .discovery) ["lmbda"] = .atom (.num lmbda))
    (hbad : lmbda ≤ k + 2) : ∃ x, (fitObjects suprbClasses limit e dflt b start training h).2 = .error x := by
  refine (C115_raises suprbClasses suprbGood suprb_checks limit e dflt b start training h hc he hd .discovery fun hgood => ?_).1
  obtain ⟨-, h1⟩ := hgood [] "NoveltySearch" (fun p hp => ⟨"NoveltySearch", by rw [List.prefix_nil.mp hp]; exact hcls, rfl⟩) hcls
  obtain ⟨l, h2, h3⟩ := h1 rfl
  have e2 := hl.symm.trans h2
  cases e2
  exact absurd (h3 k hk) (not_lt.mpr hbad)

/-- Two numbers of which the first, increased by a constant, is smaller. -/
def ltLook (c : ℚ) : Look PVal → Look PVal → Prop
  | .atom (.num a), .atom (.num b) => a + c < b
  | _, _ => False

instance (c : ℚ) : ∀ x y, Decidable (ltLook c x y)
  | .atom (.num a), .atom (.num b) => inferInstanceAs (Decidable (a + c < b))
  | .atom (.num _), .atom (.str _) => isFalse id
  | .atom (.num _), .none => isFalse id
  | .atom (.num _), .obj _ => isFalse id
  | .atom (.num _), .missing => isFalse id
  | .atom (.str _), _ => isFalse id
  | .none, _ => isFalse id
  | .obj _, _ => isFalse id
  | .missing, _ => isFalse id

theorem ltLook_elim {c : ℚ} {x y : Look PVal} (hl : ltLook c x y) : ∃ a b, x = .atom (.num a) ∧ y = .atom (.num b) ∧ a + c < b := by
  unfold ltLook at hl
  split at hl
  · exact ⟨_, _, rfl, rfl, hl⟩
  · exact hl.elim

/-- Sufficient conditions for the constructors to accept their arguments. -/
def suprbAccept (cls : Name) (f : List Name → Look PVal) : Prop :=
  (cls = "ES1xLambda" → f ["operator"] = .atom (.str "&") → ltLook 0 (f ["delay"]) (f ["n_iter"])) ∧ (cls = "NoveltySearch" → ltLook 2 (f ["novelty_calculation", "k_neighbor"]) (f ["lmbda"]))

instance (cls : Name) (f : List Name → Look PVal) : Decidable (suprbAccept cls f) := by unfold suprbAccept; infer_instance

theorem check_ite {p : Prop} [Decidable p] {x y : ClassInfo A} {h : CHeap A} {given : List (Name × CVal A)} (hx : p → x.check h given = none) (hy : ¬ p → y.check h given = none) : (if p then x else y).check h given = none := by
  split_ifs with hp
  · exact hx hp
  · exact hy hp

theorem suprb_checks_only : ChecksOnly suprbClasses suprbAccept := by
  rintro cls h given ⟨h1, h2⟩
  by_cases he : cls = "ES1xLambda"
  · subst he
    show esCheck given = none
    unfold esCheck
    by_cases hop : given.lookup "operator" = some (.atom (.str "&"))
    · rw [if_pos hop]
      obtain ⟨a, b, h3, h4, h5⟩ := ltLook_elim (h1 rfl (argLook_atom.mpr hop))
      rw [argLook_atom.mp h3, argLook_atom.mp h4]
      simp only
      rw [if_pos (by simpa using h5)]
    · rw [if_neg hop]
  · by_cases hn : cls = "NoveltySearch"
    · subst hn
      show nsCheck h given = none
      unfold nsCheck
      obtain ⟨k, l, h3, h4, h5⟩ := ltLook_elim (h2 rfl)
      simp only [argLook] at h3
      cases hv : given.lookup "novelty_calculation" with
      | none => rw [hv] at h3; cases h3
      | some v =>
        rw [hv] at h3
        cases v with
        | atom a => cases h3
        | none => cases h3
        | ref i =>
          simp only [look] at h3
          cases ho : h[i]? with
          | none => rw [ho] at h3; cases h3
          | some o =>
            rw [ho] at h3
            simp only at h3
            split_ifs at h3 with hs
            cases ha : o.attr "k_neighbor" with
            | none => rw [ha] at h3; cases h3
            | some w =>
              rw [ha] at h3
              rw [look_atom h3] at ha
              simp only [ho, ha, Option.bind_some, argLook_atom.mp h4]
              rw [if_pos h5]
    · unfold suprbClasses
      refine check_ite (fun _ => rfl) fun _ => check_ite (fun hp => absurd hp he) fun _ => check_ite (fun hp => absurd hp hn) fun _ => ?_
      repeat refine check_ite (fun _ => rfl) fun _ => ?_
      rfl

theorem look_resolved {T : Name → ClassInfo A} {h : CHeap A} {cls : Name} : ∀ (path : List Name) (v : CVal A), look T h path v = .obj cls →
    ∃ (j : Nat) (o : CObj A), h[j]? = some o ∧ o.cls = cls ∧ ∀ q, look T h (path ++ q) v = look T h q (.ref j) := by
  intro path
  induction path with
  | nil =>
    intro v hv
    cases v with
    | atom a => cases hv
    | none => cases hv
    | ref i =>
      cases ho : h[i]? with
      | none => simp [look, ho] at hv
      | some o => exact ⟨i, o, ho, by simpa [look, ho] using hv, fun q => rfl⟩
  | cons n rest ih =>
    intro v hv
    cases v with
    | atom a => cases hv
    | none => cases hv
    | ref i =>
      cases ho : h[i]? with
      | none => simp [look, ho] at hv
      | some o =>
        simp only [look, ho] at hv
        split_ifs at hv with hs
        cases ha : o.attr n with
        | none => rw [ha] at hv; cases hv
        | some w =>
          rw [ha] at hv
          obtain ⟨j, o', hj, hcls, hq⟩ := ih w hv
          exact ⟨j, o', hj, hcls, fun q => by rw [← hq q]; simp only [List.cons_append, look, ho, if_pos hs, ha]⟩

/-- Enough for settings to be acceptable: all objects are. -/
theorem acceptable_of_objects {T : Name → ClassInfo A} {good : Name → (List Name → Look A) → Prop} {h : CHeap A} (hobj : ∀ (i : Nat) (o : CObj A) (ps : List Name), h[i]? = some o → (T o.cls).params = some ps →
    (∀ p ∈ ps, look T h [p] (.ref i) ≠ .missing ∧ (p ∈ (T o.cls).fill → look T h [p] (.ref i) ≠ .none)) ∧ good o.cls fun q => look T h q (.ref i)) (v : CVal A) : Acceptable T good fun p => look T h p v := by
  intro path cls ps _ hp hps
  obtain ⟨j, o, hj, rfl, hq⟩ := look_resolved path v hp
  obtain ⟨h1, h2⟩ := hobj j o ps hj hps
  refine ⟨fun p hp => ?_, fun p hp hf => ?_, ?_⟩
  · exact fun hm => (h1 p hp).1 ((hq [p]).symm.trans hm)
  · exact fun hm => (h1 p hp).2 hf ((hq [p]).symm.trans hm)
  · simpa only [hq] using h2

/-! ## Examples and counterexamples -/

/-- Arguments of an evolution strategy with default values, apart from the number of iterations; the objects 0 and 1 are its initialisation and mutation (suprb/optimizer/rule/es/es.py:51-64). -/
def demoES (iter : ℚ) : List (Name × CVal PVal) :=
  [("acceptance", .none), ("constraint", .none), ("delay", .atom (.num 146)), ("init", .ref 0), ("lmbda", .atom (.num 20)), ("mutation", .ref 1), ("n_iter", .atom (.num iter)), ("n_jobs", .atom (.num 1)), ("operator", .atom (.str "&")),
   ("origin_generation", .none), ("random_state", .none), ("selection", .none)]

/-- Arguments of a genetic algorithm; the object 5 is its initialisation (suprb/optimizer/solution/ga/base.py:36-49). -/
def demoGA : List (Name × CVal PVal) :=
  [("archive", .none), ("crossover", .none), ("elitist_ratio", .atom (.num (17 / 100))), ("init", .ref 5), ("mutation", .none), ("n_iter", .atom (.num 32)), ("n_jobs", .atom (.num 1)), ("population_size", .atom (.num 32)), ("random_state", .none),
   ("selection", .none), ("warm_start", .atom (.num 1))]

/-- `SupRB(rule_discovery=ES1xLambda(n_iter=1000), solution_composition=GeneticAlgorithm(init=RandomInit()))` after its construction: 0 and 1 belong to the evolution strategy 2; 3 is a filter without `get_params`, 4 the mixing model, 5 the
initialisation of the genetic algorithm 6; 7 is the model. -/
def demoHeap : CHeap PVal :=
  [{ cls := "MeanInit", attrs := [("bounds", .none), ("fitness", .atom (.str "VolumeWu")), ("matching_type", .none), ("model", .atom (.str "Ridge"))] },
   { cls := "HalfnormIncrease", attrs := [("matching_type", .none), ("sigma", .atom (.num (61 / 50)))] },
   { cls := "ES1xLambda", attrs := demoES 1000 },
   { cls := "FilterSubpopulation", attrs := [("rule_amount", .atom (.num 6)), ("random_state", .atom (.num 42))] },
   { cls := "ErrorExperienceHeuristic", attrs := [("experience_calculation", .none), ("experience_weight", .atom (.num 1)), ("filter_subpopulation", .ref 3)] },
   { cls := "RandomInit", attrs := [("fitness", .atom (.str "ComplexityWu")), ("mixing", .ref 4), ("p", .atom (.num (1 / 2)))] },
   { cls := "GeneticAlgorithm", attrs := demoGA },
   { cls := "SupRB", attrs := [("early_stopping_delta", .atom (.num 0)), ("early_stopping_patience", .atom (.num (-1))), ("logger", .none), ("matching_type", .none), ("n_initial_rules", .atom (.num 0)), ("n_iter", .atom (.num 32)), ("n_jobs", .atom (.num 1)),
      ("n_rules", .atom (.num 4)), ("random_state", .none), ("rule_discovery", .ref 2), ("solution_composition", .ref 6), ("verbose", .atom (.num 1))] }]

/-- The defaults for components that are not configured. -/
def demoDefaults : Root → CObj PVal
  | .discovery => { cls := "ES1xLambda", attrs := demoES 10000 }
  | .composition => { cls := "GeneticAlgorithm", attrs := demoGA }
  | .matching => { cls := "OrderedBound", attrs := [("bounds", .atom (.str "array([])"))] }
  | .logger => { cls := "DefaultLogger", attrs := [] }

/-- Every component is made by its constructor, and `fit` accepts the model. -/
example : (construct suprbClasses "ES1xLambda" (demoES 1000) demoHeap).2.toOption.isSome ∧ (construct suprbClasses "GeneticAlgorithm" demoGA demoHeap).2.toOption.isSome ∧
    (cloneAll suprbClasses 10 7 demoDefaults demoHeap).2.toOption.isSome := by
  decide +kernel

/-- The local conditions of all objects, in a form that can be computed. -/
def objectsOK (h : CHeap PVal) : Bool :=
  (List.range h.length).all fun i => match h[i]? with
    | none => true
    | some o => match (suprbClasses o.cls).params with
      | none => true
      | some ps => ps.all (fun p => look suprbClasses h [p] (.ref i) ≠ .missing && (p ∉ (suprbClasses o.cls).fill || look suprbClasses h [p] (.ref i) ≠ .none)) && decide (suprbAccept o.cls fun q => look suprbClasses h q (.ref i))

theorem objectsOK_spec {h : CHeap PVal} (hok : objectsOK h = true) (v : CVal PVal) : Acceptable suprbClasses suprbAccept fun p => look suprbClasses h p v := by
  refine acceptable_of_objects (fun i o ps ho hps => ?_) v
  have := List.all_eq_true.mp hok i (List.mem_range.mpr (List.getElem?_eq_some_iff.mp ho).1)
  simp only [ho, hps, Bool.and_eq_true, List.all_eq_true, decide_eq_true_eq] at this
  refine ⟨fun p hp => ?_, this.2⟩
  have hp := this.1 p hp
  simp only [Bool.or_eq_true, decide_eq_true_eq] at hp
  exact ⟨hp.1, fun hf => hp.2.resolve_left fun hn => hn hf⟩

/-- `Nested`, computed. -/
def nestedOK (e : Nat) (h : CHeap A) : Nat → CVal A → Bool
  | _, .atom _ => true
  | _, .none => true
  | 0, .ref _ => false
  | k + 1, .ref i => i != e && (match h[i]? with | none => false | some o => o.attrs.all fun q => nestedOK e h k q.2)

theorem nestedOK_spec {e : Nat} {h : CHeap A} : ∀ (k : Nat) (v : CVal A), nestedOK e h k v = true → Nested e h k v := by
  intro k
  induction k with
  | zero => intro v hv; cases v <;> simp_all [Nested, nestedOK]
  | succ k ih =>
    intro v hv
    cases v with
    | atom a => trivial
    | none => trivial
    | ref i =>
      simp only [nestedOK, Bool.and_eq_true, bne_iff_ne] at hv
      obtain ⟨h1, h2⟩ := hv
      cases ho : h[i]? with
      | none => rw [ho] at h2; cases h2
      | some o =>
        rw [ho] at h2
        exact ⟨h1, o, ho, fun q hq => ih q.2 (List.all_eq_true.mp h2 q hq)⟩

theorem demo_closed : Closed demoHeap := by
  have hall : (demoHeap.all fun o => o.attrs.all fun q => match q.2 with | .ref j => decide (j < 8) | _ => true) = true := by decide +kernel
  intro i o ho q hq
  have := List.all_eq_true.mp (List.all_eq_true.mp hall o (List.mem_of_getElem? ho)) q hq
  cases hv : q.2 with
  | atom a => trivial
  | none => trivial
  | ref j => rw [hv] at this; exact (of_decide_eq_true this : j < 8)

theorem demo_estimator : Estimator suprbClasses demoHeap 7 := by
  refine ⟨⟨_, _, rfl, rfl, by decide⟩, fun o ho j => ?_⟩
  simp only [demoHeap, List.getElem?_cons_succ, List.getElem?_cons_zero, Option.some.injEq] at ho
  subst ho
  simp [CObj.attr, List.lookup]

theorem demo_within (r : Root) : Within demoHeap.length (demoDefaults r) := by
  have hall : ([Root.discovery, .composition, .matching, .logger].all fun r => (demoDefaults r).attrs.all fun q => match q.2 with | .ref j => decide (j < 8) | _ => true) = true := by decide +kernel
  intro q hq j hj
  have := List.all_eq_true.mp (List.all_eq_true.mp hall r (by cases r <;> simp)) q hq
  rw [hj] at this
  exact of_decide_eq_true this

/-- The hypotheses of C116 are satisfied by this model. -/
example : (∀ r, RootNested 10 7 (demoDefaults r) demoHeap r) ∧ (∀ r, Constructed suprbClasses (lookGiven suprbClasses demoHeap 7 r (demoDefaults r)) []) ∧
    ∀ r, Acceptable suprbClasses suprbAccept (lookGiven suprbClasses demoHeap 7 r (demoDefaults r)) := by
  refine ⟨fun r => ?_, fun r => ?_, fun r => ?_⟩
  · cases r <;> exact ⟨_, _, rfl, rfl, nestedOK_spec _ _ (by decide +kernel)⟩
  · intro p hp
    rw [List.prefix_nil.mp hp]
    cases r <;> exact ⟨_, rfl, rfl⟩
  · cases r
    · exact objectsOK_spec (h := demoHeap) (by decide +kernel) (.ref 2)
    · exact objectsOK_spec (h := demoHeap) (by decide +kernel) (.ref 6)
    · exact objectsOK_spec (h := demoHeap ++ [demoDefaults .matching]) (by decide +kernel) (.ref 8)
    · exact objectsOK_spec (h := demoHeap ++ [demoDefaults .logger]) (by decide +kernel) (.ref 8)

/-- Those of C115 by the model after `set_params(rule_discovery__n_iter=100)`, and by one whose novelty search has too many neighbours. -/
example : let h := (setParam suprbClasses ["rule_discovery", "n_iter"] (.atom (.num 100)) 7 demoHeap).1
    lookGiven suprbClasses h 7 .discovery (demoDefaults .discovery) [] = .obj "ES1xLambda" ∧ lookGiven suprbClasses h 7 .discovery (demoDefaults .discovery) ["operator"] = .atom (.str "&") ∧
    lookGiven suprbClasses h 7 .discovery (demoDefaults .discovery) ["delay"] = .atom (.num 146) ∧ lookGiven suprbClasses h 7 .discovery (demoDefaults .discovery) ["n_iter"] = .atom (.num 100) := by
  decide +kernel

/-- The full claim fails for settings made with `set_params`: the model can be trained, `set_params(rule_discovery__n_iter=100)` succeeds, and then `fit` raises an `AssertionError` (the delay is still 146). -/
theorem C116_set_params_refuted : ∃ (h : CHeap PVal), (cloneAll suprbClasses 10 7 demoDefaults demoHeap).2.toOption.isSome ∧ setParam suprbClasses ["rule_discovery", "n_iter"] (.atom (.num 100)) 7 demoHeap = (h, .ok ()) ∧
    (cloneAll suprbClasses 10 7 demoDefaults h).2.toOption = none ∧ (fitObjects suprbClasses 10 7 demoDefaults (.num 0) [] [] h).2 = .error .assertionError :=
  ⟨(setParam suprbClasses ["rule_discovery", "n_iter"] (.atom (.num 100)) 7 demoHeap).1, by decide +kernel, rfl, by decide +kernel, by decide +kernel⟩

/-- Nor do settings that every constructor accepts: `RandomInit(mixing=None)` is the default and uses the default mixing model, but after `set_params(solution_composition__init__mixing=None)`, which succeeds, `fit` raises a `RuntimeError`. -/
theorem C116_none_refuted : ∃ (h : CHeap PVal), (cloneAll suprbClasses 10 7 demoDefaults demoHeap).2.toOption.isSome ∧ setParam suprbClasses ["solution_composition", "init", "mixing"] .none 7 demoHeap = (h, .ok ()) ∧
    (fitObjects suprbClasses 10 7 demoDefaults (.num 0) [] [] h).2 = .error .runtimeError :=
  ⟨(setParam suprbClasses ["solution_composition", "init", "mixing"] .none 7 demoHeap).1, by decide +kernel, rfl, by decide +kernel⟩

end Comp

end Suprb
