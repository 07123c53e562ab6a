import Verif.Props.Components
import Mathlib.Data.List.Infix

/-!
# Claim C134: which settings the parts of rule discovery are trained with
-/

set_option autoImplicit false
set_option linter.unusedSectionVars false

namespace Suprb

namespace Comp

variable {A : Type}

/-! ## Keys and names -/

/-- The name ends with `bounds`. -/
def EndsBounds (n : Name) : Prop := "bounds".toList <:+ n.toList

instance (n : Name) : Decidable (EndsBounds n) := inferInstanceAs (Decidable ("bounds".toList <:+ n.toList))

/-- The name contains `matching_type`. -/
def HasMatching (n : Name) : Prop := "matching_type".toList <:+: n.toList

instance (n : Name) : Decidable (HasMatching n) := inferInstanceAs (Decidable ("matching_type".toList <:+: n.toList))

theorem keyChars_cons (n m : Name) (rest : List Name) : keyChars (n :: m :: rest) = n.toList ++ '_' :: '_' :: keyChars (m :: rest) := by
  simp [keyChars, List.intercalate]

theorem keyChars_single (n : Name) : keyChars [n] = n.toList := by
  simp [keyChars, List.intercalate]

theorem suffix_key (s a l : List Char) (hs : '_' ∉ s) : s <:+ a ++ '_' :: '_' :: l ↔ s <:+ l := by
  constructor
  · intro h
    have h2 : '_' :: l <:+ a ++ '_' :: '_' :: l := ⟨a ++ ['_'], by simp⟩
    rcases List.suffix_or_suffix_of_suffix h h2 with h3 | h3
    · rcases List.suffix_cons_iff.mp h3 with h4 | h4
      · rw [h4] at hs; simp at hs
      · exact h4
    · exact absurd (h3.subset (by simp)) hs
  · rintro ⟨t, rfl⟩
    exact ⟨a ++ '_' :: '_' :: t, by simp⟩

theorem isBounds_iff (p : List Name) (n : Name) : isBounds (p ++ [n]) = true ↔ EndsBounds n := by
  unfold isBounds EndsBounds
  rw [List.isSuffixOf_iff_suffix]
  induction p with
  | nil => rw [List.nil_append, keyChars_single]
  | cons m p ih =>
    cases p with
    | nil => rw [List.cons_append, List.nil_append, keyChars_cons, suffix_key _ _ _ (by decide +kernel), keyChars_single]
    | cons m2 p => rw [List.cons_append, List.cons_append, keyChars_cons, suffix_key _ _ _ (by decide +kernel)]; exact ih

theorem infix_key (a l : List Char) : "matching_type".toList <:+: a ++ '_' :: '_' :: l ↔ "matching_type".toList <:+: a ∨ "matching_type".toList <:+: l := by
  constructor
  · rintro ⟨u, v, h⟩
    have hsplit : ∀ x y : List Char, "matching_type".toList = x ++ '_' :: '_' :: y → False := by
      intro x y hxy
      have : ['_', '_'] <:+: "matching_type".toList := ⟨x, y, by rw [hxy]; simp⟩
      revert this
      decide +kernel
    rw [List.append_assoc] at h
    rcases List.append_eq_append_iff.mp h with ⟨w, h1, h2⟩ | ⟨w, h1, h2⟩
    · -- `a = u ++ w`, the rest of the key starts inside
      rcases List.append_eq_append_iff.mp h2 with ⟨z, h3, h4⟩ | ⟨z, h3, h4⟩
      · left
        exact ⟨u, z, by rw [h1, h3, List.append_assoc]⟩
      · -- `matching_type = w ++ z`
        cases z with
        | nil =>
          left
          exact ⟨u, [], by rw [h1, h3]; simp⟩
        | cons c z =>
          rw [List.cons_append] at h4
          obtain ⟨rfl, h5⟩ := List.cons.inj h4
          cases z with
          | nil =>
            exfalso
            have : "matching_type".toList.getLast? = some '_' := by rw [h3]; simp
            revert this
            decide +kernel
          | cons c z =>
            rw [List.cons_append] at h5
            obtain ⟨rfl, h6⟩ := List.cons.inj h5
            exact (hsplit w z h3).elim
    · -- `u = a ++ w`
      cases w with
      | nil =>
        exfalso
        have : ("matching_type".toList ++ v).head? = some '_' := by rw [List.nil_append] at h2; rw [← h2]; rfl
        revert this
        simp
      | cons c w =>
        rw [List.cons_append] at h2
        obtain ⟨rfl, h5⟩ := List.cons.inj h2
        cases w with
        | nil =>
          exfalso
          have : ("matching_type".toList ++ v).head? = some '_' := by rw [List.nil_append] at h5; rw [← h5]; rfl
          revert this
          simp
        | cons c w =>
          rw [List.cons_append] at h5
          obtain ⟨rfl, h6⟩ := List.cons.inj h5
          right
          exact ⟨w, v, by rw [h6]; simp⟩
  · rintro (⟨u, v, h⟩ | ⟨u, v, h⟩)
    · exact ⟨u, v ++ '_' :: '_' :: l, by rw [← h]; simp⟩
    · exact ⟨a ++ '_' :: '_' :: u, v, by rw [← h]; simp⟩

theorem isMatchingType_iff (path : List Name) : isMatchingType path = true ↔ ∃ n ∈ path, HasMatching n := by
  have hinf : ∀ l : List Char, l.tails.any ("matching_type".toList.isPrefixOf ·) = true ↔ "matching_type".toList <:+: l := by
    intro l
    rw [List.any_eq_true, List.infix_iff_prefix_suffix]
    constructor
    · rintro ⟨t, ht, hp⟩
      exact ⟨t, List.isPrefixOf_iff_prefix.mp hp, (List.mem_tails _ _).mp ht⟩
    · rintro ⟨t, hp, ht⟩
      exact ⟨t, (List.mem_tails _ _).mpr ht, List.isPrefixOf_iff_prefix.mpr hp⟩
  unfold isMatchingType HasMatching
  rw [hinf]
  induction path with
  | nil => simp [keyChars, List.intercalate]
  | cons n path ih =>
    cases path with
    | nil => rw [keyChars_single]; simp
    | cons m rest =>
      rw [keyChars_cons, infix_key]
      refine (or_congr Iff.rfl ih).trans ?_
      simp

/-! ## Following settings -/

/-- Object `j` is reached from `i` by settings. -/
def Reach (T : Name → ClassInfo A) (h : CHeap A) : List Name → Nat → Nat → Prop
  | [], i, j => i = j ∧ i < h.length
  | n :: rest, i, j => ∃ (o : CObj A) (k : Nat), h[i]? = some o ∧ n ∈ settings T o ∧ o.attr n = some (.ref k) ∧ Reach T h rest k j

theorem Reach.resolve {T : Name → ClassInfo A} {h : CHeap A} : ∀ {p : List Name} {i j : Nat}, Reach T h p i j → Comp.resolve h p i = some j
  | [], i, j, ⟨e, hi⟩ => by subst e; simp [Comp.resolve, hi]
  | n :: rest, i, j, ⟨o, k, ho, _, ha, hr⟩ => by
    rw [resolve_cons ho ha]
    exact hr.resolve

theorem Reach.look {T : Name → ClassInfo A} {h : CHeap A} : ∀ {p : List Name} {i j : Nat} (_ : Reach T h p i j) (rest : List Name), Comp.look T h (p ++ rest) (.ref i) = Comp.look T h rest (.ref j)
  | [], i, j, ⟨e, hi⟩, rest => by subst e; rfl
  | n :: p, i, j, ⟨o, k, ho, hn, ha, hr⟩, rest => by
    rw [List.cons_append, Comp.look, ho]
    dsimp only
    rw [if_pos hn, ha]
    exact hr.look rest

theorem look_split {T : Name → ClassInfo A} {h : CHeap A} {n : Name} : ∀ (p : List Name) (i : Nat), look T h (p ++ [n]) (.ref i) ≠ .missing →
    ∃ (j : Nat) (o : CObj A) (v : CVal A), Reach T h p i j ∧ h[j]? = some o ∧ n ∈ settings T o ∧ o.attr n = some v ∧ look T h [] v = look T h (p ++ [n]) (.ref i)
  | [], i, hl => by
    rw [List.nil_append, look] at hl ⊢
    cases ho : h[i]? with
    | none => rw [ho] at hl; exact absurd rfl hl
    | some o =>
      rw [ho] at hl
      dsimp only at hl ⊢
      by_cases hn : n ∈ settings T o
      · rw [if_pos hn] at hl ⊢
        cases ha : o.attr n with
        | none => rw [ha] at hl; exact absurd rfl hl
        | some v => exact ⟨i, o, v, ⟨rfl, (List.getElem?_eq_some_iff.mp ho).1⟩, ho, hn, ha, rfl⟩
      · rw [if_neg hn] at hl; exact absurd rfl hl
  | m :: p, i, hl => by
    rw [List.cons_append, look] at hl ⊢
    cases ho : h[i]? with
    | none => rw [ho] at hl; exact absurd rfl hl
    | some o =>
      rw [ho] at hl
      dsimp only at hl ⊢
      by_cases hn : m ∈ settings T o
      · rw [if_pos hn] at hl ⊢
        cases ha : o.attr m with
        | none => rw [ha] at hl; exact absurd rfl hl
        | some v =>
          rw [ha] at hl
          dsimp only at hl ⊢
          cases v with
          | ref k =>
            obtain ⟨j, o', v, a, b, c, d, e⟩ := look_split p k hl
            exact ⟨j, o', v, ⟨o, k, ho, hn, ha, a⟩, b, c, d, e⟩
          | atom x => cases p <;> exact absurd rfl hl
          | none => cases p <;> exact absurd rfl hl
      · rw [if_neg hn] at hl; exact absurd rfl hl

theorem Reach.lt {T : Name → ClassInfo A} {h : CHeap A} : ∀ {p : List Name} {i j : Nat}, Reach T h p i j → j < h.length
  | [], _, _, ⟨e, hi⟩ => e ▸ hi
  | _ :: _, _, _, ⟨_, _, _, _, _, hr⟩ => hr.lt

theorem reach_snoc {T : Name → ClassInfo A} {h : CHeap A} {n : Name} {j k : Nat} {o : CObj A} : ∀ {p : List Name} {i : Nat}, Reach T h p i j → h[j]? = some o → n ∈ settings T o → o.attr n = some (.ref k) →
    k < h.length → Reach T h (p ++ [n]) i k
  | [], _, ⟨e, _⟩, ho, hn, ha, hk => by subst e; exact ⟨o, k, ho, hn, ha, rfl, hk⟩
  | _ :: _, _, ⟨o1, k1, b1, b2, b3, b4⟩, ho, hn, ha, hk => ⟨o1, k1, b1, b2, b3, reach_snoc b4 ho hn ha hk⟩

theorem reach_cons {T : Name → ClassInfo A} {h : CHeap A} {m : Name} {p2 : List Name} {j : Nat} : ∀ {p1 : List Name} {i : Nat}, Reach T h (p1 ++ m :: p2) i j →
    ∃ (i' : Nat) (o : CObj A) (k : Nat), Reach T h p1 i i' ∧ h[i']? = some o ∧ m ∈ settings T o ∧ o.attr m = some (.ref k)
  | [], i, ⟨o, k, b1, b2, b3, _⟩ => ⟨i, o, k, ⟨rfl, (List.getElem?_eq_some_iff.mp b1).1⟩, b1, b2, b3⟩
  | _ :: _, i, ⟨o1, k1, b1, b2, b3, b4⟩ => by
    obtain ⟨i', o, k, c1, c2⟩ := reach_cons b4
    exact ⟨i', o, k, ⟨o1, k1, b1, b2, b3, c1⟩, c2⟩

/-- The value is no object. -/
def Plain (v : CVal A) : Prop := ∀ j, v ≠ .ref j

theorem deepParams_sound {T : Name → ClassInfo A} {h : CHeap A} : ∀ (limit : Nat) (i : Nat) (q : List Name × CVal A), q ∈ deepParams T h limit (.ref i) →
    ∃ (p : List Name) (n : Name) (j : Nat) (o : CObj A), q.1 = p ++ [n] ∧ Reach T h p i j ∧ h[j]? = some o ∧ n ∈ settings T o ∧ o.attr n = some q.2
  | 0, i, q, hq => by simp [deepParams] at hq
  | limit + 1, i, q, hq => by
    rw [deepParams] at hq
    cases ho : h[i]? with
    | none => rw [ho] at hq; simp at hq
    | some o =>
      rw [ho] at hq
      dsimp only at hq
      cases hp : (T o.cls).params with
      | none => rw [hp] at hq; simp at hq
      | some ps =>
        rw [hp] at hq
        dsimp only at hq
        obtain ⟨n, hn, hq⟩ := List.mem_flatMap.mp hq
        have hs : n ∈ settings T o := by unfold settings; rw [hp]; exact hn
        have hi := (List.getElem?_eq_some_iff.mp ho).1
        cases ha : o.attr n with
        | none => rw [ha] at hq; simp at hq
        | some v =>
          rw [ha] at hq
          dsimp only at hq
          rcases List.mem_append.mp hq with hq | hq
          · obtain ⟨q', hq', rfl⟩ := List.mem_map.mp hq
            cases v with
            | ref k =>
              obtain ⟨p, m, j, o', a, b, c, d, e⟩ := deepParams_sound limit k q' hq'
              exact ⟨n :: p, m, j, o', by rw [a]; rfl, ⟨o, k, ho, hs, ha, b⟩, c, d, e⟩
            | atom x => cases limit <;> simp [deepParams] at hq'
            | none => cases limit <;> simp [deepParams] at hq'
          · rw [List.mem_singleton] at hq
            subst hq
            exact ⟨[], n, i, o, rfl, ⟨rfl, hi⟩, ho, hs, ha⟩

/-- The path goes through objects with `get_params` only. -/
def ThroughParams (T : Name → ClassInfo A) (lk : List Name → Look A) (p : List Name) : Prop :=
  ∀ p1 p2, p = p1 ++ p2 → ∃ cls, lk p1 = .obj cls ∧ (T cls).params ≠ none

theorem deepParams_complete {T : Name → ClassInfo A} {h : CHeap A} {n : Name} {j : Nat} {o : CObj A} {v : CVal A} (ho : h[j]? = some o) (hn : n ∈ settings T o) (ha : o.attr n = some v) :
    ∀ (p : List Name) (limit i : Nat), p.length < limit → Reach T h p i j → ThroughParams T (fun p => look T h p (.ref i)) p → (p ++ [n], v) ∈ deepParams T h limit (.ref i)
  | [], 0, i, hl, _, _ => by simp at hl
  | _ :: _, 0, i, hl, _, _ => by simp at hl
  | [], limit + 1, i, hl, ⟨e, _⟩, ht => by
    subst e
    obtain ⟨cls, h1, h2⟩ := ht [] [] rfl
    simp only [look, ho, Look.obj.injEq] at h1
    subst h1
    rw [deepParams, ho]
    dsimp only
    unfold settings at hn
    cases hp : (T o.cls).params with
    | none => exact absurd hp h2
    | some ps =>
      rw [hp] at hn
      exact List.mem_flatMap.mpr ⟨n, hn, by rw [ha]; simp⟩
  | m :: p, limit + 1, i, hl, ⟨o1, k, ho1, hm, ha1, hr⟩, ht => by
    obtain ⟨cls, h1, h2⟩ := ht [] (m :: p) rfl
    simp only [look, ho1, Look.obj.injEq] at h1
    subst h1
    rw [deepParams, ho1]
    dsimp only
    have hm' := hm
    unfold settings at hm'
    cases hp : (T o1.cls).params with
    | none => exact absurd hp h2
    | some ps =>
      rw [hp] at hm'
      refine List.mem_flatMap.mpr ⟨m, hm', ?_⟩
      rw [ha1]
      refine List.mem_append_left _ (List.mem_map.mpr ⟨(p ++ [n], v), deepParams_complete ho hn ha p limit k (by simpa using hl) hr ?_, rfl⟩)
      intro p1 p2 hp12
      obtain ⟨cls, b1, b2⟩ := ht (m :: p1) p2 (by rw [hp12]; rfl)
      refine ⟨cls, ?_, b2⟩
      dsimp only at b1 ⊢
      rw [← b1, look, ho1]
      dsimp only
      rw [if_pos hm, ha1]

/-! ## Changed settings -/

/-- Some attributes have changed, as allowed by `W` (object, name, value before, value after). -/
def Upd (T : Name → ClassInfo A) (W : Nat → Name → Option (CVal A) → CVal A → Prop) (h h' : CHeap A) : Prop :=
  h'.length = h.length ∧ ∀ (i : Nat) (o : CObj A), h[i]? = some o → ∃ o' : CObj A, h'[i]? = some o' ∧ o'.cls = o.cls ∧ settings T o' = settings T o ∧
    ∀ n, o'.attr n = o.attr n ∨ ∃ v', o'.attr n = some v' ∧ W i n (o.attr n) v'

theorem Upd.refl (T : Name → ClassInfo A) (W : Nat → Name → Option (CVal A) → CVal A → Prop) (h : CHeap A) : Upd T W h h :=
  ⟨rfl, fun _ o ho => ⟨o, ho, rfl, rfl, fun _ => .inl rfl⟩⟩

theorem Upd.mono {T : Name → ClassInfo A} {W W' : Nat → Name → Option (CVal A) → CVal A → Prop} {h h' : CHeap A} (u : Upd T W h h') (hW : ∀ i n v v', W i n v v' → W' i n v v') : Upd T W' h h' := by
  refine ⟨u.1, fun i o ho => ?_⟩
  obtain ⟨o', a, b, c, d⟩ := u.2 i o ho
  exact ⟨o', a, b, c, fun n => (d n).imp id fun ⟨v', e, f⟩ => ⟨v', e, hW _ _ _ _ f⟩⟩

theorem Upd.trans {T : Name → ClassInfo A} {W W1 W2 : Nat → Name → Option (CVal A) → CVal A → Prop} {h h1 h2 : CHeap A} (u1 : Upd T W1 h h1) (u2 : Upd T W2 h1 h2)
    (h1W : ∀ i n v v', W1 i n v v' → W i n v v') (h2W : ∀ i n v v', W2 i n v v' → W i n v v') (h12 : ∀ i n v v1 v', W1 i n v v1 → W2 i n (some v1) v' → W i n v v') : Upd T W h h2 := by
  refine ⟨u2.1.trans u1.1, fun i o ho => ?_⟩
  obtain ⟨o1, a, b, c, d⟩ := u1.2 i o ho
  obtain ⟨o2, a2, b2, c2, d2⟩ := u2.2 i o1 a
  refine ⟨o2, a2, b2.trans b, c2.trans c, fun n => ?_⟩
  rcases d n with e | ⟨v1, e, f⟩ <;> rcases d2 n with e2 | ⟨v2, e2, f2⟩
  · exact .inl (e2.trans e)
  · exact .inr ⟨v2, e2, h2W _ _ _ _ (e ▸ f2)⟩
  · exact .inr ⟨v1, e2.trans e, h1W _ _ _ _ f⟩
  · rw [e] at f2
    exact .inr ⟨v2, e2, h12 _ _ _ _ _ f f2⟩

/-- One assignment. -/
theorem Upd.set {T : Name → ClassInfo A} {h : CHeap A} {j : Nat} {o : CObj A} {ps : List Name} (ho : h[j]? = some o) (hp : (T o.cls).params = some ps) (n : Name) (w : CVal A) :
    Upd T (fun i m v v' => i = j ∧ m = n ∧ v = o.attr n ∧ v' = w) h (h.modify j fun o => { o with attrs := setIn n w o.attrs }) := by
  refine ⟨List.length_modify _ _ _, fun i p hpi => ?_⟩
  by_cases hij : j = i
  · subst hij
    rw [ho] at hpi
    cases hpi
    refine ⟨{ o with attrs := setIn n w o.attrs }, by simp [ho], rfl, by unfold settings; simp only [hp], fun m => ?_⟩
    by_cases hm : m = n
    · subst hm
      exact .inr ⟨w, by unfold CObj.attr; rw [lookup_setIn, if_pos rfl], rfl, rfl, rfl, rfl⟩
    · exact .inl (by unfold CObj.attr; rw [lookup_setIn, if_neg hm])
  · exact ⟨p, by simp [hij, hpi], rfl, rfl, fun _ => .inl rfl⟩

/-- `set_params` changes nothing and raises, or makes one assignment to the object reached. -/
theorem setParam_run (T : Name → ClassInfo A) : ∀ (path : List Name) (w : CVal A) (i : Nat) (h : CHeap A), (∃ x, setParam T path w i h = (h, .error x)) ∨
    ∃ (p : List Name) (n : Name) (j : Nat) (o : CObj A) (ps : List Name) (r : Except PyErr Unit), path = p ++ [n] ∧ resolve h p i = some j ∧ h[j]? = some o ∧ (T o.cls).params = some ps ∧
      setParam T path w i h = (h.modify j fun o => { o with attrs := setIn n w o.attrs }, r)
  | [], w, i, h => .inl ⟨_, rfl⟩
  | n :: rest, w, i, h => by
    rw [setParam]
    unfold CM.bind CM.object
    cases ho : h[i]? with
    | none => exact .inl ⟨_, rfl⟩
    | some o =>
      dsimp only
      cases hp : (T o.cls).params with
      | none => exact .inl ⟨_, rfl⟩
      | some ps =>
        dsimp only
        by_cases hn : n ∉ ps
        · rw [if_pos hn]; exact .inl ⟨_, rfl⟩
        · rw [if_neg hn]
          have hi := (List.getElem?_eq_some_iff.mp ho).1
          cases rest with
          | nil =>
            right
            refine ⟨[], n, i, o, ps, ?_⟩
            dsimp only [CM.bind, CM.setAttr]
            have hget : (h.modify i fun o => { o with attrs := setIn n w o.attrs })[i]? = some { o with attrs := setIn n w o.attrs } := by simp [ho]
            rw [hget]
            dsimp only
            cases (T o.cls).setCheck (h.modify i fun o => { o with attrs := setIn n w o.attrs }) { o with attrs := setIn n w o.attrs } n with
            | none => exact ⟨_, rfl, by simp [resolve, hi], ho, hp, rfl⟩
            | some x => exact ⟨_, rfl, by simp [resolve, hi], ho, hp, rfl⟩
          | cons m rest =>
            dsimp only
            cases ha : o.attr n with
            | none => exact .inl ⟨_, rfl⟩
            | some v =>
              cases v with
              | atom x => exact .inl ⟨_, rfl⟩
              | none => exact .inl ⟨_, rfl⟩
              | ref k =>
                dsimp only
                rcases setParam_run T (m :: rest) w k h with hx | ⟨p, n', j, o', ps', r, a, b, c, d, e⟩
                · exact .inl hx
                · exact .inr ⟨n :: p, n', j, o', ps', r, by rw [a]; rfl, by rw [resolve_cons ho ha]; exact b, c, d, e⟩

/-- Plain attributes only have changed. -/
def KeepsRefs (W : Nat → Name → Option (CVal A) → CVal A → Prop) : Prop := ∀ i n k v', ¬ W i n (some (.ref k)) v'

theorem Upd.reach {T : Name → ClassInfo A} {W : Nat → Name → Option (CVal A) → CVal A → Prop} {h h' : CHeap A} (u : Upd T W h h') :
    ∀ {p : List Name} {i j : Nat}, (∀ n ∈ p, ∀ i k v', ¬ W i n (some (.ref k)) v') → Reach T h p i j → Reach T h' p i j
  | [], i, j, _, ⟨e, hi⟩ => ⟨e, by rw [u.1]; exact hi⟩
  | n :: p, i, j, hW, ⟨o, k, ho, hn, ha, hr⟩ => by
    obtain ⟨o', a, b, c, d⟩ := u.2 i o ho
    refine ⟨o', k, a, by rw [c]; exact hn, ?_, u.reach (fun m hm => hW m (List.mem_cons_of_mem _ hm)) hr⟩
    rcases d n with e | ⟨v', _, f⟩
    · rw [e]; exact ha
    · rw [ha] at f
      exact absurd f (hW n (by simp) i k v')

/-- The assignments made by a loop over keys: `S` are the attributes that the keys stand for. -/
theorem forAll_setParam (T : Name → ClassInfo A) (rd : Nat) (w : CVal A) (h0 : CHeap A) (S : Nat → Name → Prop) (hS : ∀ i n, S i n → ∃ (o : CObj A) (v : CVal A), h0[i]? = some o ∧ o.attr n = some v ∧ Plain v) :
    ∀ (qs : List (List Name × CVal A)), (∀ q ∈ qs, ∃ p n j, q.1 = p ++ [n] ∧ Reach T h0 p rd j ∧ S j n) → ∀ (h h' : CHeap A), Upd T (fun i n _ v' => S i n ∧ v' = w) h0 h →
      CM.forAll (fun q : List Name × CVal A => setParam T q.1 w rd) qs h = (h', .ok ()) →
      Upd T (fun i n _ v' => S i n ∧ v' = w) h0 h' ∧ (∀ (i : Nat) (o : CObj A) (n : Name), h[i]? = some o → o.attr n = some w → ∃ o' : CObj A, h'[i]? = some o' ∧ o'.attr n = some w) ∧
        ∀ q ∈ qs, ∀ p n j, q.1 = p ++ [n] → Reach T h0 p rd j → ∃ o' : CObj A, h'[j]? = some o' ∧ o'.attr n = some w
  | [], _, h, h', hu, hr => by
    cases hr
    exact ⟨hu, fun i o n ho ha => ⟨o, ho, ha⟩, by simp⟩
  | q :: qs, hq, h, h', hu, hr => by
    obtain ⟨p, n, j, e1, hreach, hSj⟩ := hq q (by simp)
    rw [CM.forAll] at hr
    unfold CM.bind at hr
    rcases setParam_run T q.1 w rd h with ⟨x, hx⟩ | ⟨p', n', j', o, ps, r, a, b, c, d, e⟩
    · rw [hx] at hr; cases hr
    · rw [e] at hr
      cases r with
      | error x => cases hr
      | ok _ =>
        dsimp only at hr
        rw [e1] at a
        obtain ⟨rfl, a⟩ := List.append_inj' a rfl
        obtain rfl : n = n' := by simpa using a
        have hkeep : ∀ m ∈ p, ∀ i k v', ¬ (fun (i : Nat) (n : Name) (v : Option (CVal A)) v' => (S i n ∧ v' = w) ∧ ∃ u, v = some u ∧ Plain u) i m (some (.ref k)) v' := by
          rintro m _ i k v' ⟨_, u, hu, hpl⟩
          cases hu
          exact hpl k rfl
        have hu' : Upd T (fun i n v v' => (S i n ∧ v' = w) ∧ ∃ u, v = some u ∧ Plain u) h0 h := by
          refine ⟨hu.1, fun i o ho => ?_⟩
          obtain ⟨o', a1, a2, a3, a4⟩ := hu.2 i o ho
          refine ⟨o', a1, a2, a3, fun m => (a4 m).imp id fun ⟨v', f1, f2⟩ => ⟨v', f1, f2, ?_⟩⟩
          obtain ⟨o2, u, g1, g2, g3⟩ := hS i m f2.1
          rw [ho] at g1
          cases g1
          exact ⟨u, g2, g3⟩
        have hres := (hu'.reach hkeep hreach).resolve
        rw [b] at hres
        cases hres
        have hset := Upd.set c d n w
        have hu2 : Upd T (fun i n _ v' => S i n ∧ v' = w) h0 (h.modify j fun o => { o with attrs := setIn n w o.attrs }) :=
          hu.trans hset (fun _ _ _ _ hx => hx) (fun i m v v' hx => ⟨by rw [hx.1, hx.2.1]; exact hSj, hx.2.2.2⟩) (fun i m v v1 v' _ hx => ⟨by rw [hx.1, hx.2.1]; exact hSj, hx.2.2.2⟩)
        obtain ⟨r1, r2, r3⟩ := forAll_setParam T rd w h0 S hS qs (fun q hq' => hq q (List.mem_cons_of_mem _ hq')) _ h' hu2 hr
        have hstep : ∀ (i : Nat) (o : CObj A) (m : Name), h[i]? = some o → (o.attr m = some w ∨ (i = j ∧ m = n)) → ∃ o' : CObj A, h'[i]? = some o' ∧ o'.attr m = some w := by
          intro i o1 m ho1 hor
          obtain ⟨o', a1, _, _, a4⟩ := hset.2 i o1 ho1
          refine r2 i o' m a1 ?_
          rcases a4 m with g | ⟨v', g1, g2⟩
          · rcases hor with g' | ⟨rfl, rfl⟩
            · exact g.trans g'
            · rw [c] at ho1
              cases ho1
              have : (h.modify i fun o => { o with attrs := setIn m w o.attrs })[i]? = some { o with attrs := setIn m w o.attrs } := by simp [c]
              rw [this] at a1
              cases a1
              unfold CObj.attr
              rw [lookup_setIn, if_pos rfl]
          · rw [g1, g2.2.2.2]
        refine ⟨r1, fun i o m ho ha => hstep i o m ho (.inl ha), fun q' hq' p' n' j' b1 b2 => ?_⟩
        rcases List.mem_cons.mp hq' with rfl | hq'
        · rw [e1] at b1
          obtain ⟨rfl, b1⟩ := List.append_inj' b1 rfl
          obtain rfl : n = n' := by simpa using b1
          have := (hu'.reach hkeep b2).resolve
          rw [b] at this
          cases this
          exact hstep j o n c (.inr ⟨rfl, rfl⟩)
        · exact r3 q' hq' p' n' j' b1 b2

theorem Upd.before {T : Name → ClassInfo A} {W : Nat → Name → Option (CVal A) → CVal A → Prop} {h h' : CHeap A} (u : Upd T W h h') :
    Upd T (fun i n v v' => W i n v v' ∧ ∃ o : CObj A, h[i]? = some o ∧ o.attr n = v) h h' := by
  refine ⟨u.1, fun i o ho => ?_⟩
  obtain ⟨o', a, b, c, d⟩ := u.2 i o ho
  exact ⟨o', a, b, c, fun n => (d n).imp id fun ⟨v', e, f⟩ => ⟨v', e, f, o, ho, rfl⟩⟩

theorem Upd.get {T : Name → ClassInfo A} {W : Nat → Name → Option (CVal A) → CVal A → Prop} {h h' : CHeap A} (u : Upd T W h h') {i : Nat} {o' : CObj A} (ho : h'[i]? = some o') : ∃ o : CObj A, h[i]? = some o := by
  have : i < h.length := by rw [← u.1]; exact (List.getElem?_eq_some_iff.mp ho).1
  exact ⟨_, List.getElem?_eq_getElem this⟩

/-- New values are no objects, so what is reached afterwards was reached before. -/
theorem Upd.reach_back {T : Name → ClassInfo A} {W : Nat → Name → Option (CVal A) → CVal A → Prop} {h h' : CHeap A} (u : Upd T W h h') (hW : ∀ i n v v', W i n v v' → Plain v') :
    ∀ {p : List Name} {i j : Nat}, Reach T h' p i j → Reach T h p i j
  | [], i, j, ⟨e, hi⟩ => ⟨e, by rw [← u.1]; exact hi⟩
  | n :: p, i, j, ⟨o', k, ho', hn, ha, hr⟩ => by
    obtain ⟨o, ho⟩ := u.get ho'
    obtain ⟨o2, a, b, c, d⟩ := u.2 i o ho
    rw [ho'] at a
    cases a
    refine ⟨o, k, ho, by rw [← c]; exact hn, ?_, u.reach_back hW hr⟩
    rcases d n with e | ⟨v', e, f⟩
    · rw [← e]; exact ha
    · rw [ha] at e
      cases e
      exact absurd rfl (hW _ _ _ _ f k)

/-- All changes made by the configuration: `n_jobs`, missing bounds, matching types. -/
def Allowed (b : A) (_ : Nat) (n : Name) (v : Option (CVal A)) (v' : CVal A) : Prop := n = "n_jobs" ∨ (v = some .none ∧ EndsBounds n ∧ v' = .atom b) ∨ HasMatching n

theorem upd_look {T : Name → ClassInfo A} {b : A} {h h' : CHeap A} (u : Upd T (Allowed b) h h') :
    ∀ (path : List Name) (v : CVal A), "n_jobs" ∉ path → (∀ n ∈ path, ¬ HasMatching n) → (∀ p n, path = p ++ [n] → EndsBounds n → look T h path v ≠ .none) → look T h' path v = look T h path v
  | [], v, _, _, _ => by
    cases v with
    | atom a => rfl
    | none => rfl
    | ref i =>
      rw [look, look]
      cases ho : h[i]? with
      | none =>
        have : h'[i]? = none := by rw [List.getElem?_eq_none_iff] at ho ⊢; rw [u.1]; exact ho
        rw [this]
      | some o =>
        obtain ⟨o', a, c, _⟩ := u.2 i o ho
        rw [a]
        dsimp only
        rw [c]
  | n :: rest, v, hj, hm, hb => by
    cases v with
    | atom a => rfl
    | none => rfl
    | ref i =>
      rw [look] at hb
      rw [look, look]
      cases ho : h[i]? with
      | none =>
        have : h'[i]? = none := by rw [List.getElem?_eq_none_iff] at ho ⊢; rw [u.1]; exact ho
        rw [this]
      | some o =>
        obtain ⟨o', a, c, d, e⟩ := u.2 i o ho
        rw [ho] at hb
        rw [a]
        dsimp only at hb ⊢
        rw [d]
        by_cases hn : n ∈ settings T o
        · rw [if_pos hn] at hb
          rw [if_pos hn, if_pos hn]
          rcases e n with f | ⟨v', f, g⟩
          · rw [f]
            cases ha : o.attr n with
            | none => rfl
            | some v =>
              rw [ha] at hb
              exact upd_look u rest v (fun hx => hj (List.mem_cons_of_mem _ hx)) (fun m hx => hm m (List.mem_cons_of_mem _ hx)) fun p m e1 => hb (n :: p) m (by rw [e1]; rfl)
          · rcases g with g | ⟨g1, g2, g3⟩ | g
            · exact absurd (by rw [g]; simp) hj
            · rw [f, g1, g3]
              rw [g1] at hb
              cases rest with
              | nil => exact absurd rfl (hb [] n rfl g2)
              | cons m rest => rfl
            · exact absurd g (hm n (by simp))
        · rw [if_neg hn, if_neg hn]

theorem not_endsBounds_jobs : ¬ EndsBounds "n_jobs" := by decide +kernel

theorem not_hasMatching_jobs : ¬ HasMatching "n_jobs" := by decide +kernel

/-- What the configuration of the clones does. -/
theorem setup_steps {T : Name → ClassInfo A} {limit e : Nat} {dflt : Root → CObj A} {b : A} {h h' : CHeap A} {c : Clones} (hc : Closed h) (he : Estimator T h e) (hd : ∀ r, Within h.length (dflt r))
    (hr : setup T limit e dflt b h = (h', .ok c)) (hmt : ∀ p n cls, HasMatching n → lookGiven T h e .discovery (dflt .discovery) (p ++ [n]) ≠ .obj cls) :
    ∃ h1 h2 h3, cloneAll T limit e dflt h = (h1, .ok c) ∧
      Upd T (fun _ n _ v' => n = "n_jobs" ∧ Plain v') h1 h2 ∧
      Upd T (fun _ n v v' => v = some .none ∧ EndsBounds n ∧ v' = .atom b) h2 h3 ∧
      Upd T (fun _ n _ v' => HasMatching n ∧ v' = .ref c.mt) h3 h' ∧
      (∀ q ∈ deepParams T h2 limit (.ref c.rd), ∀ p n j, q = (p ++ [n], .none) → EndsBounds n → Reach T h2 p c.rd j → ∃ o' : CObj A, h3[j]? = some o' ∧ o'.attr n = some (.atom b)) ∧
      (∀ q ∈ deepParams T h3 limit (.ref c.rd), ∀ p n j, q.1 = p ++ [n] → HasMatching n → Reach T h3 p c.rd j → ∃ o' : CObj A, h'[j]? = some o' ∧ o'.attr n = some (.ref c.mt)) := by
  unfold setup CM.bind at hr
  cases hcl : cloneAll T limit e dflt h with
  | mk h1 r1 =>
  rw [hcl] at hr
  cases r1 with
  | error x => cases hr
  | ok c1 =>
  dsimp only at hr
  cases hpr : propagate T e c1.rd c1.sc h1 with
  | mk h2 r2 =>
  rw [hpr] at hr
  cases r2 with
  | error x => cases hr
  | ok _ =>
  dsimp only at hr
  cases hib : initBounds T limit c1.rd b h2 with
  | mk h3 r3 =>
  rw [hib] at hr
  cases r3 with
  | error x => cases hr
  | ok _ =>
  dsimp only at hr
  cases him : initMatching T limit c1.rd c1.mt h3 with
  | mk h4 r4 =>
  rw [him] at hr
  cases r4 with
  | error x => cases hr
  | ok _ =>
  cases hr
  -- the clones
  obtain ⟨k1, _⟩ := Kept.step ⟨Frame.refl e _ h, hc, he⟩ (Confined.cloneAll (n0 := h.length) T limit dflt hd) he.lt
  rw [hcl] at k1
  dsimp only at k1
  have hlook := (C112_clones T limit e dflt h h1 c hc he hd hcl .discovery).2
  -- `n_jobs`
  have u12 : Upd T (fun _ n _ v' => n = "n_jobs" ∧ Plain v') h1 h2 := by
    unfold propagate CM.bind CM.getAttr CM.bind CM.object at hpr
    cases ho : h1[e]? with
    | none => rw [ho] at hpr; cases hpr
    | some o =>
      rw [ho] at hpr
      dsimp only at hpr
      cases ha : o.attr "n_jobs" with
      | none => rw [ha] at hpr; cases hpr
      | some v =>
        rw [ha] at hpr
        dsimp only [CM.ret] at hpr
        have hpl : Plain v := fun j hj => k1.est.2 o ho j (by rw [ha, hj])
        have hone : ∀ (i : Nat) (g g' : CHeap A), setParam T ["n_jobs"] v i g = (g', .ok ()) → Upd T (fun _ n _ v' => n = "n_jobs" ∧ Plain v') g g' := by
          intro i g g' hg
          rcases setParam_run T ["n_jobs"] v i g with ⟨x, hx⟩ | ⟨p, n, j, o, ps, r, a, b1, c1, d, e1⟩
          · rw [hx] at hg; cases hg
          · rw [e1] at hg
            cases hg
            have hn : n = "n_jobs" := by
              cases p with
              | nil => simpa using a.symm
              | cons m p => simp at a
            exact (Upd.set c1 d n v).mono fun i m w w' hw => ⟨hw.2.1.trans hn, by rw [hw.2.2.2]; exact hpl⟩
        cases hs : setParam T ["n_jobs"] v c.rd h1 with
        | mk g r =>
          rw [hs] at hpr
          cases r with
          | error x => cases hpr
          | ok _ => exact (hone _ _ _ hs).trans (hone _ _ _ hpr) (fun _ _ _ _ hx => hx) (fun _ _ _ _ hx => hx) (fun _ _ _ _ _ _ hx => hx)
  -- the bounds
  have hB := forAll_setParam T c.rd (.atom b) h2 (fun i n => EndsBounds n ∧ ∃ o : CObj A, h2[i]? = some o ∧ o.attr n = some .none)
    (fun i n hx => by obtain ⟨_, o, a1, a2⟩ := hx; exact ⟨o, .none, a1, a2, fun j hj => by cases hj⟩)
    ((deepParams T h2 limit (.ref c.rd)).filter fun q => isBounds q.1 && q.2.isNone)
    (fun q hq => by
      obtain ⟨hq, hf⟩ := List.mem_filter.mp hq
      obtain ⟨p, n, j, o, a1, a2, a3, a4, a5⟩ := deepParams_sound limit c.rd q hq
      simp only [Bool.and_eq_true, a1, isBounds_iff] at hf
      refine ⟨p, n, j, a1, a2, hf.1, o, a3, ?_⟩
      cases hv : q.2 with
      | none => rw [a5, hv]
      | atom x => rw [hv] at hf; cases hf.2
      | ref x => rw [hv] at hf; cases hf.2) h2 h3 (Upd.refl _ _ _) hib
  have u23 : Upd T (fun _ n v v' => v = some .none ∧ EndsBounds n ∧ v' = .atom b) h2 h3 := by
    refine hB.1.before.mono ?_
    rintro i n v v' ⟨⟨⟨h1, o, h2, h3⟩, h4⟩, o', h5, h6⟩
    rw [h2] at h5
    cases h5
    exact ⟨h6.symm.trans h3, h1, h4⟩
  -- objects reached now have been reached before
  have u13 : Upd T (fun _ _ _ v' => Plain v') h1 h3 := u12.trans u23 (fun _ _ _ _ hx => hx.2) (fun _ _ _ _ hx => by rw [hx.2.2]; exact fun j hj => by cases hj)
    (fun _ _ _ _ _ _ hx => by rw [hx.2.2]; exact fun j hj => by cases hj)
  have hnoref : ∀ p n j (o : CObj A), Reach T h3 p c.rd j → h3[j]? = some o → n ∈ settings T o → HasMatching n → ∀ k, o.attr n ≠ some (.ref k) := by
    intro p n j o hreach ho hn hm k hk
    have hr3 : Reach T h3 (p ++ [n]) c.rd k → False := by
      intro hr3
      have hr1 := u13.reach_back (fun _ _ _ _ hx => hx) hr3
      have := hr1.look []
      rw [List.append_nil] at this
      have hk1 : k < h1.length := hr1.lt
      rw [look, List.getElem?_eq_getElem hk1] at this
      dsimp only at this
      rw [show (Clones.rd c) = c.at .discovery from rfl, hlook] at this
      exact hmt p n _ hm this
    exact hr3 (reach_snoc hreach ho hn hk (by
      obtain ⟨o1, ho1⟩ := u13.get ho
      obtain ⟨o3, a1, _, _, a4⟩ := u13.2 j o1 ho1
      rw [ho] at a1
      cases a1
      rcases a4 n with f | ⟨v', f, g⟩
      · rw [u13.1]; exact closed_attr k1.closed ho1 (by rw [← f]; exact hk)
      · rw [hk] at f
        cases f
        exact absurd rfl (g k)))
  have hM := forAll_setParam T c.rd (.ref c.mt) h3 (fun i n => HasMatching n ∧ ∃ (o : CObj A) (v : CVal A), h3[i]? = some o ∧ o.attr n = some v ∧ Plain v)
    (fun i n hx => hx.2)
    ((deepParams T h3 limit (.ref c.rd)).filter fun q => isMatchingType q.1)
    (fun q hq => by
      obtain ⟨hq, hf⟩ := List.mem_filter.mp hq
      obtain ⟨p, n, j, o, a1, a2, a3, a4, a5⟩ := deepParams_sound limit c.rd q hq
      rw [a1, isMatchingType_iff] at hf
      obtain ⟨m, hm, hmm⟩ := hf
      have hn : HasMatching n := by
        rcases List.mem_append.mp hm with hm | hm
        · exfalso
          obtain ⟨p1, p2, rfl⟩ := List.append_of_mem hm
          obtain ⟨i, o1, k, b1, b2, b3, b4⟩ := reach_cons a2
          exact hnoref p1 m i o1 b1 b2 b3 hmm k b4
        · rw [List.mem_singleton] at hm
          rw [← hm]; exact hmm
      exact ⟨p, n, j, a1, a2, hn, o, q.2, a3, a5, fun k hk => hnoref p n j o a2 a3 a4 hn k (by rw [a5, hk])⟩) h3 h' (Upd.refl _ _ _) him
  refine ⟨h1, h2, h3, rfl, u12, u23, hM.1.mono fun _ _ _ _ hx => ⟨hx.1.1, hx.2⟩, ?_, ?_⟩
  · rintro q hq p n j rfl hb hreach
    exact hB.2.2 (p ++ [n], .none) (List.mem_filter.mpr ⟨hq, by simp [isBounds_iff, hb, CVal.isNone]⟩) p n j rfl hreach
  · intro q hq p n j e1 hm hreach
    exact hM.2.2 q (List.mem_filter.mpr ⟨hq, by rw [e1, isMatchingType_iff]; exact ⟨n, by simp, hm⟩⟩) p n j e1 hreach

theorem setup_allowed {T : Name → ClassInfo A} {b : A} {mt : Nat} {h1 h2 h3 h' : CHeap A} (u12 : Upd T (fun _ n _ v' => n = "n_jobs" ∧ Plain v') h1 h2)
    (u23 : Upd T (fun _ n v v' => v = some .none ∧ EndsBounds n ∧ v' = .atom b) h2 h3) (u34 : Upd T (fun _ n _ v' => HasMatching n ∧ v' = .ref mt) h3 h') :
    Upd T (Allowed b) h1 h2 ∧ Upd T (Allowed b) h1 h3 ∧ Upd T (Allowed b) h1 h' := by
  have a : Upd T (Allowed b) h1 h2 := u12.mono fun _ _ _ _ hx => .inl hx.1
  have c : Upd T (Allowed b) h1 h3 := by
    refine u12.trans u23 (fun _ _ _ _ hx => .inl hx.1) (fun _ _ _ _ hx => .inr (.inl hx)) (fun _ n _ _ _ hx hy => .inl hx.1)
  exact ⟨a, c, c.trans u34 (fun _ _ _ _ hx => hx) (fun _ _ _ _ hx => .inr (.inr hx.1)) (fun _ _ _ _ _ _ hx => .inr (.inr hx.1))⟩

/-! ## C134 -/

/-- What a user has configured for rule discovery, at the end of a list of names of settings; the default components if rule discovery is not given. -/
abbrev given (T : Name → ClassInfo A) (h : CHeap A) (e : Nat) (dflt : Root → CObj A) (path : List Name) : Look A := lookGiven T h e .discovery (dflt .discovery) path

/-- C134: bounds that are not given are those of the data, … (`path` leads through components with `get_params`, and is not too deep for the interpreter) -/
theorem C134_bounds_from_data (T : Name → ClassInfo A) (limit e : Nat) (dflt : Root → CObj A) (b : A) (h h' : CHeap A) (c : Clones) (hc : Closed h) (he : Estimator T h e) (hd : ∀ r, Within h.length (dflt r))
    (hmt : ∀ p n cls, HasMatching n → given T h e dflt (p ++ [n]) ≠ .obj cls) (hr : setup T limit e dflt b h = (h', .ok c))
    (p : List Name) (n : Name) (hb : EndsBounds n) (hn : ¬ HasMatching n) (hj : "n_jobs" ∉ p) (hlen : p.length < limit) (hp : ThroughParams T (given T h e dflt) p)
    (hg : given T h e dflt (p ++ [n]) = .none) : look T h' (p ++ [n]) (.ref c.rd) = .atom b := by
  obtain ⟨h1, h2, h3, hcl, u12, u23, u34, hB, _⟩ := setup_steps hc he hd hr hmt
  obtain ⟨a12, a13, a14⟩ := setup_allowed u12 u23 u34
  have hlook := (C112_clones T limit e dflt h h1 c hc he hd hcl .discovery).2
  have hnp : ∀ m ∈ p, ¬ HasMatching m := by
    intro m hm hmm
    obtain ⟨p1, p2, rfl⟩ := List.append_of_mem hm
    obtain ⟨cls, h1, _⟩ := hp (p1 ++ [m]) p2 (by simp)
    exact hmt p1 m cls hmm h1
  have hg1 : look T h1 (p ++ [n]) (.ref c.rd) = .none := (hlook _).trans hg
  obtain ⟨j, o, v, r1, ho, hs, ha, hv⟩ := look_split p c.rd (by rw [hg1]; simp)
  have hvn : v = .none := by
    rw [hg1] at hv
    cases v with
    | none => rfl
    | atom x => cases hv
    | ref i => rw [look] at hv; cases hi : h1[i]? <;> rw [hi] at hv <;> cases hv
  subst hvn
  have r2 : Reach T h2 p c.rd j := u12.reach (fun m hm i k v' hx => hj (by rw [← hx.1]; exact hm)) r1
  obtain ⟨o2, b1, _, b3, b4⟩ := u12.2 j o ho
  have ha2 : o2.attr n = some .none := by
    rcases b4 n with f | ⟨_, _, f, _⟩
    · exact f.trans ha
    · exact absurd hb (by rw [f]; exact not_endsBounds_jobs)
  have hp2 : ThroughParams T (fun p => look T h2 p (.ref c.rd)) p := by
    intro p1 p2 e1
    obtain ⟨cls, c1, c2⟩ := hp p1 p2 e1
    have c1' : look T h1 p1 (.ref c.rd) = .obj cls := (hlook _).trans c1
    refine ⟨cls, ?_, c2⟩
    dsimp only
    rw [upd_look a12 p1 _ (fun hx => hj (by rw [e1]; exact List.mem_append_left _ hx)) (fun m hm => hnp m (by rw [e1]; exact List.mem_append_left _ hm)) (fun _ _ _ _ hx => by rw [c1'] at hx; cases hx)]
    exact c1'
  have hmem := deepParams_complete b1 (by rw [b3]; exact hs) ha2 p limit c.rd hlen r2 hp2
  obtain ⟨o3, d1, d2⟩ := hB _ hmem p n j rfl hb r2
  obtain ⟨o4, e1, _, e3, e4⟩ := u34.2 j o3 d1
  have ha4 : o4.attr n = some (.atom b) := by
    rcases e4 n with f | ⟨_, _, f, _⟩
    · exact f.trans d2
    · exact absurd f hn
  have r4 : Reach T h' p c.rd j := u34.reach (fun m hm i k v' hx => hnp m hm hx.1) (u23.reach (fun m hm i k v' hx => by cases hx.1) r2)
  have hs4 : n ∈ settings T o4 := by
    obtain ⟨o3', f1, _, f3, _⟩ := u23.2 j o2 b1
    rw [d1] at f1
    cases f1
    rw [e3, f3, b3]
    exact hs
  rw [r4.look [n], look, e1]
  dsimp only
  rw [if_pos hs4, ha4]
  rfl

/-- … every part with a matching type (that is not an object) uses the one of the estimator, … -/
theorem C134_matching_type (T : Name → ClassInfo A) (limit e : Nat) (dflt : Root → CObj A) (b : A) (h h' : CHeap A) (c : Clones) (hc : Closed h) (he : Estimator T h e) (hd : ∀ r, Within h.length (dflt r))
    (hmt : ∀ p n cls, HasMatching n → given T h e dflt (p ++ [n]) ≠ .obj cls) (hr : setup T limit e dflt b h = (h', .ok c))
    (p : List Name) (n : Name) (hn : HasMatching n) (hj : "n_jobs" ∉ p) (hlen : p.length < limit) (hp : ThroughParams T (given T h e dflt) p) (hg : given T h e dflt (p ++ [n]) ≠ .missing) :
    (∀ rest, look T h' (p ++ n :: rest) (.ref c.rd) = look T h' rest (.ref c.mt)) ∧ look T h' [] (.ref c.mt) = lookGiven T h e .matching (dflt .matching) [] := by
  obtain ⟨h1, h2, h3, hcl, u12, u23, u34, _, hM⟩ := setup_steps hc he hd hr hmt
  obtain ⟨a12, a13, a14⟩ := setup_allowed u12 u23 u34
  have hlook := (C112_clones T limit e dflt h h1 c hc he hd hcl .discovery).2
  have hnp : ∀ m ∈ p, ¬ HasMatching m := by
    intro m hm hmm
    obtain ⟨p1, p2, rfl⟩ := List.append_of_mem hm
    obtain ⟨cls, h1, _⟩ := hp (p1 ++ [m]) p2 (by simp)
    exact hmt p1 m cls hmm h1
  constructor
  · intro rest
    obtain ⟨j, o, v, r1, ho, hs, ha, hv⟩ := look_split (T := T) (h := h1) (n := n) p c.rd (by rw [show c.rd = c.at .discovery from rfl, hlook]; exact hg)
    have r3 : Reach T h3 p c.rd j := u23.reach (fun m hm i k v' hx => by cases hx.1) (u12.reach (fun m hm i k v' hx => hj (by rw [← hx.1]; exact hm)) r1)
    have r4 : Reach T h' p c.rd j := u34.reach (fun m hm i k v' hx => hnp m hm hx.1) r3
    obtain ⟨o3, b1, _, b3, b4⟩ := a13.2 j o ho
    have ha3 : ∃ v3, o3.attr n = some v3 := by
      rcases b4 n with f | ⟨v', f, _⟩
      · exact ⟨v, f.trans ha⟩
      · exact ⟨v', f⟩
    obtain ⟨v3, ha3⟩ := ha3
    have hp3 : ThroughParams T (fun p => look T h3 p (.ref c.rd)) p := by
      intro p1 p2 e1
      obtain ⟨cls, c1, c2⟩ := hp p1 p2 e1
      have c1' : look T h1 p1 (.ref c.rd) = .obj cls := (hlook _).trans c1
      refine ⟨cls, ?_, c2⟩
      dsimp only
      rw [upd_look a13 p1 _ (fun hx => hj (by rw [e1]; exact List.mem_append_left _ hx)) (fun m hm => hnp m (by rw [e1]; exact List.mem_append_left _ hm)) (fun _ _ _ _ hx => by rw [c1'] at hx; cases hx)]
      exact c1'
    have hmem := deepParams_complete b1 (by rw [b3]; exact hs) ha3 p limit c.rd hlen r3 hp3
    obtain ⟨o4, d1, d2⟩ := hM _ hmem p n j rfl hn r3
    have hs4 : n ∈ settings T o4 := by
      obtain ⟨o4', f1, _, f3, _⟩ := a14.2 j o ho
      rw [d1] at f1
      cases f1
      rw [f3]
      exact hs
    rw [r4.look (n :: rest), look, d1]
    dsimp only
    rw [if_pos hs4, d2]
  · rw [upd_look a14 [] _ (by simp) (by simp) (by simp)]
    exact (C112_clones T limit e dflt h h1 c hc he hd hcl .matching).2 []

/-- … and all other settings (apart from `n_jobs`), in particular bounds that are given, are as configured. -/
theorem C134_others_as_given (T : Name → ClassInfo A) (limit e : Nat) (dflt : Root → CObj A) (b : A) (h h' : CHeap A) (c : Clones) (hc : Closed h) (he : Estimator T h e) (hd : ∀ r, Within h.length (dflt r))
    (hmt : ∀ p n cls, HasMatching n → given T h e dflt (p ++ [n]) ≠ .obj cls) (hr : setup T limit e dflt b h = (h', .ok c))
    (path : List Name) (hj : "n_jobs" ∉ path) (hm : ∀ n ∈ path, ¬ HasMatching n) (hb : ∀ p n, path = p ++ [n] → EndsBounds n → given T h e dflt path ≠ .none) :
    look T h' path (.ref c.rd) = given T h e dflt path := by
  obtain ⟨h1, h2, h3, hcl, u12, u23, u34, _, _⟩ := setup_steps hc he hd hr hmt
  obtain ⟨_, _, a14⟩ := setup_allowed u12 u23 u34
  have hlook := (C112_clones T limit e dflt h h1 c hc he hd hcl .discovery).2
  rw [upd_look a14 path _ hj hm (fun p n e1 e2 => by rw [show c.rd = c.at .discovery from rfl, hlook]; exact hb p n e1 e2)]
  exact hlook path

/-! ## An example -/

/-- No matching type of a part of rule discovery is an object if there are none at all. -/
theorem no_matching_objects (T : Name → ClassInfo A) (h : CHeap A) (e : Nat) (dflt : Root → CObj A)
    (hall : ∀ o ∈ h ++ [dflt .discovery], ∀ q ∈ o.attrs, HasMatching q.1 → Plain q.2) (p : List Name) (n : Name) (cls : Name) (hn : HasMatching n) : given T h e dflt (p ++ [n]) ≠ .obj cls := by
  have key : ∀ (g : CHeap A) (i : Nat), (∀ o ∈ g, ∀ q ∈ o.attrs, HasMatching q.1 → Plain q.2) → look T g (p ++ [n]) (.ref i) ≠ .obj cls := by
    intro g i hg hl
    obtain ⟨j, o, v, _, ho, _, ha, hv⟩ := look_split (T := T) (h := g) (n := n) p i (by rw [hl]; simp)
    have := hg o (List.mem_of_getElem? ho) (n, v) (lookup_mem ha) hn
    rw [hl] at hv
    cases v with
    | none => cases hv
    | atom x => cases hv
    | ref k => exact this k rfl
  unfold given lookGiven
  split
  · simp
  · exact key _ _ hall
  · rename_i v _ _
    cases v with
    | ref i => exact key _ _ fun o ho => hall o (List.mem_append_left _ ho)
    | atom x => cases p <;> simp [look]
    | none => cases p <;> simp [look]

/-- Some classes with some of their parameters (suprb/suprb.py:80-93, suprb/optimizer/rule/es/es.py:50-64, suprb/rule/initialization.py:25-38). -/
def exClasses2 : Name → ClassInfo ℚ := fun cls =>
  if cls = "SupRB" then { params := some ["rule_discovery", "solution_composition", "matching_type", "logger", "n_jobs"] }
  else if cls = "ES1xLambda" then { params := some ["n_iter", "init", "mutation", "n_jobs"] }
  else if cls = "MeanInit" then { params := some ["bounds", "matching_type"] }
  else { params := some ["n_jobs"] }

/-- `SupRB(rule_discovery=ES1xLambda(init=MeanInit(bounds=…)))`, with given bounds (here the value 5) or without. -/
def exHeap2 (bounds : CVal ℚ) : CHeap ℚ :=
  [{ cls := "MeanInit", attrs := [("bounds", bounds), ("matching_type", .none)] }, { cls := "ES1xLambda", attrs := [("n_iter", .atom 500), ("init", .ref 0), ("mutation", .none), ("n_jobs", .atom 1)] },
   { cls := "SupRB", attrs := [("rule_discovery", .ref 1), ("solution_composition", .none), ("matching_type", .none), ("logger", .none), ("n_jobs", .atom 4)] }]

/-- The default components in the example. -/
def exDefaults2 (_ : Root) : CObj ℚ := { cls := "Other", attrs := [("n_jobs", .atom 1)] }

/-- The premises of the theorems. -/
example : Closed (exHeap2 .none) ∧ Estimator exClasses2 (exHeap2 .none) 2 ∧ (∀ r, Within (exHeap2 .none).length (exDefaults2 r)) ∧
    (∀ p n cls, HasMatching n → given exClasses2 (exHeap2 .none) 2 exDefaults2 (p ++ [n]) ≠ .obj cls) ∧ ThroughParams exClasses2 (given exClasses2 (exHeap2 .none) 2 exDefaults2) ["init"] ∧
    EndsBounds "bounds" ∧ HasMatching "matching_type" := by
  refine ⟨?_, ⟨⟨_, _, rfl, rfl, by decide⟩, ?_⟩, ?_, fun p n cls => no_matching_objects _ _ _ _ ?_ p n cls, ?_, by decide +kernel, by decide +kernel⟩
  · intro i o ho q hq
    match i, ho with
    | 0, ho | 1, ho | 2, ho => simp [exHeap2] at ho; subst ho; simp at hq; rcases hq with rfl | rfl | rfl | rfl | rfl <;> simp [Valid, exHeap2]
  · intro o ho j
    simp [exHeap2] at ho
    subst ho
    simp [CObj.attr, List.lookup]
  · intro r q hq j hj
    simp [exDefaults2] at hq
    subst hq
    cases hj
  · intro o ho q hq hm j hj
    have hnot : ¬ HasMatching "init" ∧ ¬ HasMatching "rule_discovery" := by decide +kernel
    simp [exHeap2, exDefaults2] at ho
    rcases ho with rfl | rfl | rfl | rfl <;> simp at hq
    · rcases hq with rfl | rfl <;> cases hj
    · rcases hq with rfl | rfl | rfl | rfl <;> first | exact hnot.1 hm | cases hj
    · rcases hq with rfl | rfl | rfl | rfl | rfl <;> first | exact hnot.2 hm | cases hj
    · subst hq; cases hj
  · intro p1 p2 e1
    have : p1 = [] ∨ p1 = ["init"] := by
      cases p1 with
      | nil => exact .inl rfl
      | cons a l =>
        rw [List.cons_append] at e1
        obtain ⟨rfl, e2⟩ := List.cons.inj e1
        cases l with
        | nil => exact .inr rfl
        | cons _ _ => simp at e2
    rcases this with rfl | rfl
    · exact ⟨"ES1xLambda", rfl, by decide⟩
    · exact ⟨"MeanInit", rfl, by decide⟩

/-- Without bounds those of the data (here the value 7) are used, given bounds are kept; the matching type is set. -/
example :
    let r := setup exClasses2 10 2 exDefaults2 7 (exHeap2 .none)
    let r' := setup exClasses2 10 2 exDefaults2 7 (exHeap2 (.atom 5))
    (r.2.toOption.any fun c => decide (look exClasses2 r.1 ["init", "bounds"] (.ref c.rd) = .atom 7 ∧ look exClasses2 r.1 ["init", "matching_type"] (.ref c.rd) = .obj "Other" ∧
      look exClasses2 r.1 ["n_iter"] (.ref c.rd) = .atom 500)) ∧
    (r'.2.toOption.any fun c => decide (look exClasses2 r'.1 ["init", "bounds"] (.ref c.rd) = .atom 5)) := by decide +kernel

end Comp

end Suprb
