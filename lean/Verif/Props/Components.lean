import Verif.Lemmas.Components
import Mathlib.Data.Rat.Defs

/-!
# C112, C113: parameters of estimators and components
-/

set_option autoImplicit false
set_option linter.unusedSectionVars false

namespace Suprb

namespace Comp

variable {A : Type} {α β : Type}

/-! ## What `fit` can change -/

/-- The objects of the set refer to each other only. -/
def Private (P : Nat → Prop) (h : CHeap A) : Prop := ∀ i, P i → i < h.length ∧ ∀ o : CObj A, h[i]? = some o → ∀ q ∈ o.attrs, ∀ j, q.2 = .ref j → P j

/-- Nothing changed besides the objects of the set and the fitted attributes of the estimator `e`. -/
structure Frame (e : Nat) (P : Nat → Prop) (h h' : CHeap A) : Prop where
  len : h.length ≤ h'.length
  other : ∀ i < h.length, ¬ P i → i ≠ e → h'[i]? = h[i]?
  own : ∀ o : CObj A, h[e]? = some o → ∃ o' : CObj A, h'[e]? = some o' ∧ o'.cls = o.cls ∧ ∀ n, n ∉ fitAttributes → o'.attr n = o.attr n

/-- The parameter `n_jobs` of the estimator is a number or `None`. -/
def PlainJobs (e : Nat) (h : CHeap A) : Prop := ∀ o : CObj A, h[e]? = some o → ∀ j, o.attr "n_jobs" ≠ some (.ref j)

/-- The object refers to objects below `n` only. -/
def Within (n : Nat) (o : CObj A) : Prop := ∀ q ∈ o.attrs, ∀ j, q.2 = .ref j → j < n

/-- The statement changes only the objects of the set and the fitted attributes of `e`; it may create new objects, which join the set. -/
def Confined (e n0 : Nat) (P : Nat → Prop) (m : CM A α) (h : CHeap A) (Q : (Nat → Prop) → CHeap A → α → Prop) : Prop :=
  e < n0 → n0 ≤ h.length → ¬ P e → PlainJobs e h → Private P h → ∃ P' : Nat → Prop, (∀ i, P i → P' i) ∧ (∀ i, P' i → ¬ P i → h.length ≤ i) ∧ Private P' (m h).1 ∧ Frame e P h (m h).1 ∧ (Closed h → Closed (m h).1) ∧
    ∀ a, (m h).2 = .ok a → Q P' (m h).1 a

theorem Frame.refl (e : Nat) (P : Nat → Prop) (h : CHeap A) : Frame e P h h := ⟨le_refl _, fun _ _ _ _ => rfl, fun o ho => ⟨o, ho, rfl, fun _ _ => rfl⟩⟩

theorem Frame.trans {e : Nat} {P P' : Nat → Prop} {h h1 h2 : CHeap A} (f1 : Frame e P h h1) (hnew : ∀ i, P' i → ¬ P i → h.length ≤ i) (f2 : Frame e P' h1 h2) : Frame e P h h2 := by
  refine ⟨f1.len.trans f2.len, fun i hi hP he => ?_, fun o ho => ?_⟩
  · rw [f2.other i (lt_of_lt_of_le hi f1.len) (fun h' => absurd (hnew i h' hP) (by omega)) he, f1.other i hi hP he]
  · obtain ⟨o1, a1, a2, a3⟩ := f1.own o ho
    obtain ⟨o2, b1, b2, b3⟩ := f2.own o1 a1
    exact ⟨o2, b1, b2.trans a2, fun n hn => (b3 n hn).trans (a3 n hn)⟩

theorem Frame.jobs {e : Nat} {P : Nat → Prop} {h h' : CHeap A} (f : Frame e P h h') (he : e < h.length) (hj : PlainJobs e h) : PlainJobs e h' := by
  intro o' ho' j
  obtain ⟨o1, a1, _, a3⟩ := f.own h[e] (List.getElem?_eq_getElem he)
  rw [ho'] at a1
  cases a1
  rw [a3 "n_jobs" (by decide)]
  exact hj _ (List.getElem?_eq_getElem he) j

theorem Confined.ret {e n0 : Nat} {P : Nat → Prop} {h : CHeap A} (a : α) {Q : (Nat → Prop) → CHeap A → α → Prop} (hq : Q P h a) : Confined e n0 P (CM.ret a) h Q :=
  fun _ _ _ _ hp => ⟨P, fun _ h => h, fun _ h h' => absurd h h', hp, Frame.refl e P h, id, fun b hb => by cases hb; exact hq⟩

theorem Confined.raise {e n0 : Nat} {P : Nat → Prop} {h : CHeap A} (x : PyErr) (Q : (Nat → Prop) → CHeap A → α → Prop) : Confined e n0 P (CM.raise x) h Q :=
  fun _ _ _ _ hp => ⟨P, fun _ h => h, fun _ h h' => absurd h h', hp, Frame.refl e P h, id, fun b hb => by cases hb⟩

/-- A statement that changes nothing. -/
theorem Confined.pure {e n0 : Nat} {P : Nat → Prop} {h : CHeap A} {m : CM A α} {Q : (Nat → Prop) → CHeap A → α → Prop} (hm : (m h).1 = h) (hq : ∀ a, (m h).2 = .ok a → Q P h a) :
    Confined e n0 P m h Q := fun _ _ _ _ hp => ⟨P, fun _ h => h, fun _ h h' => absurd h h', by rw [hm]; exact hp, by rw [hm]; exact Frame.refl e P h, by rw [hm]; exact id, fun a ha => by rw [hm]; exact hq a ha⟩

theorem Confined.mono {e n0 : Nat} {P : Nat → Prop} {h : CHeap A} {m : CM A α} {Q Q' : (Nat → Prop) → CHeap A → α → Prop} (hm : Confined e n0 P m h Q) (hq : ∀ P' h' a, Q P' h' a → Q' P' h' a) :
    Confined e n0 P m h Q' := fun a b c d x => by
  obtain ⟨P', h1, h2, h3, h4, h5, h6⟩ := hm a b c d x
  exact ⟨P', h1, h2, h3, h4, h5, fun x hx => hq _ _ _ (h6 x hx)⟩

theorem Confined.bind {e n0 : Nat} {P : Nat → Prop} {h : CHeap A} {m : CM A α} {f : α → CM A β} {Q : (Nat → Prop) → CHeap A → α → Prop} {Q' : (Nat → Prop) → CHeap A → β → Prop}
    (hm : Confined e n0 P m h Q) (hf : ∀ P' h' a, (∀ i, P i → P' i) → Q P' h' a → Confined e n0 P' (f a) h' Q') : Confined e n0 P (m.bind f) h Q' := by
  intro he hn hP hj hp
  have hel : e < h.length := lt_of_lt_of_le he hn
  obtain ⟨P1, a1, a2, a3, a4, ac, a5⟩ := hm he hn hP hj hp
  unfold CM.bind
  cases hmh : m h with
  | mk h1 r =>
    rw [hmh] at a3 a4 ac a5
    dsimp only at a3 a4 ac a5
    cases r with
    | error x => exact ⟨P1, a1, a2, a3, a4, ac, fun b hb => by cases hb⟩
    | ok a =>
      obtain ⟨P2, b1, b2, b3, b4, bc, b5⟩ := hf P1 h1 a a1 (a5 a rfl) he (hn.trans a4.len) (fun h' => absurd (a2 e h' hP) (by omega)) (a4.jobs hel hj) a3
      refine ⟨P2, fun i hi => b1 i (a1 i hi), fun i h2 h3 => ?_, b3, a4.trans a2 b4, fun hc => bc (ac hc), b5⟩
      by_cases h4 : P1 i
      · exact a2 i h4 h3
      · exact a4.len.trans (b2 i h2 h4)

theorem Confined.forAll {e n0 : Nat} {f : α → CM A Unit} (R : (Nat → Prop) → Prop) (hR : ∀ P P' : Nat → Prop, (∀ i, P i → P' i) → R P → R P') :
    ∀ (xs : List α), (∀ x ∈ xs, ∀ (P : Nat → Prop) (h : CHeap A), R P → Confined e n0 P (f x) h fun _ _ _ => True) → ∀ (P : Nat → Prop) (h : CHeap A), R P →
      Confined e n0 P (CM.forAll f xs) h fun _ _ _ => True := by
  intro xs
  induction xs with
  | nil => intro _ P h _; exact Confined.ret () trivial
  | cons x xs ih =>
    intro hf P h hr
    exact Confined.bind (hf x (by simp) P h hr) fun P' h' _ hP' _ => ih (fun y hy => hf y (List.mem_cons_of_mem _ hy)) P' h' (hR P P' hP' hr)

theorem Confined.alloc {e n0 : Nat} {P : Nat → Prop} {h : CHeap A} (o : CObj A) (ho : Within n0 o) : Confined e n0 P (CM.alloc o) h fun _ h' i => h' = h ++ [o] ∧ i = h.length := by
  intro he hn hP hj hp
  refine ⟨P, fun _ h => h, fun _ h h' => absurd h h', fun i hi => ?_, ⟨by simp [CM.alloc], fun i hi _ _ => ?_, fun p hp' => ?_⟩, fun hc => ?_, fun a ha => ?_⟩
  · obtain ⟨a, b⟩ := hp i hi
    refine ⟨by simp only [CM.alloc, List.length_append]; omega, fun p hp' => ?_⟩
    simp only [CM.alloc, List.getElem?_append_left a] at hp'
    exact b p hp'
  · simp only [CM.alloc, List.getElem?_append_left hi]
  · refine ⟨p, ?_, rfl, fun _ _ => rfl⟩
    simp only [CM.alloc, List.getElem?_append_left (lt_of_lt_of_le he hn)]
    exact hp'
  · refine closed_append (n := 0) hc (Nat.zero_le _) fun i p _ hp' q hq j hj => ⟨Nat.zero_le _, ?_⟩
    by_cases hlt : i < h.length
    · rw [List.getElem?_append_left hlt] at hp'
      have := hc i p hp' q hq
      rw [hj] at this
      exact lt_of_lt_of_le this (by simp)
    · rw [List.getElem?_append_right (by omega)] at hp'
      have hp2 : p = o := by
        cases hk : i - h.length with
        | zero => rw [hk] at hp'; simpa using hp'.symm
        | succ k => rw [hk] at hp'; simp at hp'
      subst hp2
      have := ho q hq j hj
      rw [List.length_append]
      omega
  · cases ha; exact ⟨rfl, rfl⟩

theorem Confined.intro {e n0 : Nat} {P : Nat → Prop} {h : CHeap A} {m : CM A α} {Q : (Nat → Prop) → CHeap A → α → Prop}
    (hs : e < n0 → n0 ≤ h.length → ¬ P e → PlainJobs e h → Private P h → Confined e n0 P m h Q) : Confined e n0 P m h Q := fun a b c d x => hs a b c d x a b c d x

theorem Confined.object {e n0 : Nat} {P : Nat → Prop} {h : CHeap A} (i : Nat) : Confined e n0 P (CM.object i) h fun P' h' o => P' = P ∧ h' = h ∧ h[i]? = some o := by
  refine Confined.pure ?_ ?_
  · unfold CM.object; cases h[i]? <;> rfl
  · intro o ho
    unfold CM.object at ho
    cases hh : h[i]? with
    | none => rw [hh] at ho; cases ho
    | some o' => rw [hh] at ho; cases ho; exact ⟨rfl, rfl, rfl⟩

theorem Confined.getAttr {e n0 : Nat} {P : Nat → Prop} {h : CHeap A} (i : Nat) (n : Name) :
    Confined e n0 P (CM.getAttr i n) h fun P' h' v => P' = P ∧ h' = h ∧ ∃ o : CObj A, h[i]? = some o ∧ o.attr n = some v := by
  refine Confined.bind (Confined.object i) ?_
  rintro P' h' o - ⟨rfl, rfl, ho⟩
  cases ha : o.attr n with
  | none => exact Confined.raise _ _
  | some v => exact Confined.ret v ⟨rfl, rfl, o, ho, ha⟩

theorem mem_setIn {n : Name} {v : CVal A} {l : List (Name × CVal A)} {q : Name × CVal A} (h : q ∈ setIn n v l) : q = (n, v) ∨ q ∈ l := by
  induction l with
  | nil => left; simpa [setIn] using h
  | cons p l ih =>
    unfold setIn at h
    split_ifs at h with hp
    · rcases List.mem_cons.mp h with h | h
      · exact .inl h
      · exact .inr (List.mem_cons_of_mem _ h)
    · rcases List.mem_cons.mp h with h | h
      · exact .inr (by rw [h]; simp)
      · rcases ih h with h | h
        · exact .inl h
        · exact .inr (List.mem_cons_of_mem _ h)

theorem lookup_setIn (n m : Name) (v : CVal A) (l : List (Name × CVal A)) : (setIn n v l).lookup m = if m = n then some v else l.lookup m := by
  induction l with
  | nil =>
    by_cases h : m = n
    · subst h; simp [setIn, List.lookup]
    · have hb : (m == n) = false := by simpa using h
      simp [setIn, List.lookup, hb, h]
  | cons p l ih =>
    obtain ⟨k, w⟩ := p
    unfold setIn
    by_cases hk : k = n
    · subst hk
      rw [if_pos rfl]
      by_cases h : m = k
      · subst h; simp [List.lookup]
      · have hb : (m == k) = false := by simpa using h
        simp [List.lookup, hb, h]
    · rw [if_neg hk]
      by_cases h : m = k
      · subst h; simp [List.lookup, hk]
      · have hb : (m == k) = false := by simpa using h
        simp only [List.lookup, hb]
        exact ih

theorem closed_setAttr {h : CHeap A} (hc : Closed h) (i : Nat) (n : Name) (v : CVal A) (hv : ∀ j, v = .ref j → j < h.length) : Closed (CM.setAttr i n v h).1 := by
  intro k o ho q hq
  simp only [CM.setAttr, List.getElem?_modify] at ho
  obtain ⟨o0, h0, h1⟩ := Option.map_eq_some_iff.mp ho
  have hlen : (CM.setAttr i n v h).1.length = h.length := by simp [CM.setAttr]
  have hcase : q = (n, v) ∨ q ∈ o0.attrs := by
    by_cases hik : i = k
    · rw [if_pos hik] at h1
      subst h1
      exact mem_setIn hq
    · rw [if_neg hik] at h1
      subst h1
      exact .inr hq
  rcases hcase with rfl | hq
  · cases v with
    | ref j => exact (hv j rfl).trans_eq hlen.symm
    | atom a => trivial
    | none => trivial
  · exact valid_mono hlen.symm.le (hc k o0 h0 q hq)

theorem Confined.setAttr {e n0 : Nat} {P : Nat → Prop} {h : CHeap A} (i : Nat) (n : Name) (v : CVal A) (hi : P i) (hv : ∀ j, v = .ref j → P j) :
    Confined e n0 P (CM.setAttr i n v) h fun _ _ _ => True := by
  intro he hn hP hj hp
  refine ⟨P, fun _ h => h, fun _ h h' => absurd h h', fun k hk => ?_, ⟨by simp [CM.setAttr], fun k _ hk _ => ?_, fun o ho => ⟨o, ?_, rfl, fun _ _ => rfl⟩⟩, fun hc => closed_setAttr hc i n v fun j hj' => (hp j (hv j hj')).1, fun _ _ => trivial⟩
  · obtain ⟨a, b⟩ := hp k hk
    refine ⟨by simpa [CM.setAttr] using a, fun o ho q hq j hj => ?_⟩
    simp only [CM.setAttr, List.getElem?_modify] at ho
    obtain ⟨o0, h0, h1⟩ := Option.map_eq_some_iff.mp ho
    by_cases hik : i = k
    · rw [if_pos hik] at h1
      subst h1
      rcases mem_setIn hq with rfl | hq
      · exact hv j hj
      · exact b o0 h0 q hq j hj
    · rw [if_neg hik] at h1
      subst h1
      exact b o0 h0 q hq j hj
  · have hne : i ≠ k := fun h' => hk (h' ▸ hi)
    simp [CM.setAttr, hne]
  · have hne : i ≠ e := fun h' => hP (h' ▸ hi)
    simp [CM.setAttr, hne, ho]

theorem Confined.setOwn {e n0 : Nat} {P : Nat → Prop} {h : CHeap A} (n : Name) (v : CVal A) (hf : n ∈ fitAttributes) (hv : ∀ j, v = .ref j → P j) : Confined e n0 P (CM.setAttr e n v) h fun _ h' _ => True := by
  intro he hn hP hj hp
  refine ⟨P, fun _ h => h, fun _ h h' => absurd h h', fun k hk => ?_, ⟨by simp [CM.setAttr], fun k _ _ hk => ?_, fun o ho => ⟨{ o with attrs := setIn n v o.attrs }, ?_, rfl, fun m hm => ?_⟩⟩, fun hc => closed_setAttr hc e n v fun j hj' => (hp j (hv j hj')).1, fun _ _ => trivial⟩
  · obtain ⟨a, b⟩ := hp k hk
    have hne : e ≠ k := fun h' => hP (h' ▸ hk)
    refine ⟨by simpa [CM.setAttr] using a, fun o ho => b o ?_⟩
    simpa [CM.setAttr, hne] using ho
  · simp [CM.setAttr, Ne.symm hk]
  · simp [CM.setAttr, ho]
  · unfold CObj.attr
    dsimp only
    rw [lookup_setIn, if_neg (fun h' : m = n => hm (h' ▸ hf))]

theorem Confined.setParam {e n0 : Nat} (T : Name → ClassInfo A) (v : CVal A) : ∀ (path : List Name) (P : Nat → Prop) (h : CHeap A) (i : Nat), P i → (∀ j, v = .ref j → P j) →
    Confined e n0 P (setParam T path v i) h fun _ _ _ => True := by
  intro path
  induction path with
  | nil => intro P h i _ _; exact Confined.raise _ _
  | cons n rest ih =>
    intro P h i hi hv
    refine Confined.intro fun _ _ _ _ hp => ?_
    refine Confined.bind (Confined.object i) ?_
    rintro P' h' o - ⟨rfl, rfl, ho⟩
    cases (T o.cls).params with
    | none => exact Confined.raise _ _
    | some ps =>
      dsimp only
      by_cases hn : n ∈ ps
      swap
      · rw [if_pos hn]
        exact Confined.raise _ _
      · rw [if_neg (not_not.mpr hn)]
        cases rest with
        | nil =>
          refine Confined.bind (Confined.setAttr i n v hi hv) fun P2 h2 _ _ _ => Confined.pure ?_ ?_
          · cases h2[i]? with
            | none => rfl
            | some o' => dsimp only; cases (T o.cls).setCheck h2 o' n <;> rfl
          · intro _ _; trivial
        | cons m rest =>
          dsimp only
          cases ha : o.attr n with
          | none => exact Confined.raise _ _
          | some w =>
            cases w with
            | ref j => exact ih P' h' j ((hp i hi).2 o ho (n, .ref j) (lookup_mem ha) j rfl) hv
            | atom a => exact Confined.raise _ _
            | none => exact Confined.raise _ _

theorem Confined.cloneTop {e n0 : Nat} (T : Name → ClassInfo A) (limit : Nat) (v : CVal A) {P : Nat → Prop} {h : CHeap A} :
    Confined e n0 P (cloneTop T limit v) h fun P' h' j => P' j ∧ (∃ l, h' = h ++ l) ∧ CopyOf T h.length h v h' (.ref j) := by
  intro he hn hP hj hp
  obtain ⟨l, a, b, c⟩ := cloneTop_adds T h.length limit v h (le_refl _) (le_refl _) (newClosed_self h)
  refine ⟨fun i => P i ∨ h.length ≤ i ∧ i < (h ++ l).length, fun i hi => .inl hi, fun i hi hno => ?_, ?_, ?_, ?_, ?_⟩
  · rcases hi with hi | hi
    · exact absurd hi hno
    · exact hi.1
  · rw [a]
    intro i hi
    by_cases hlt : i < h.length
    · have hPi : P i := by rcases hi with hi | hi; exact hi; omega
      obtain ⟨x, y⟩ := hp i hPi
      refine ⟨by rw [List.length_append]; omega, fun o ho q hq j hj => .inl ?_⟩
      rw [List.getElem?_append_left hlt] at ho
      exact y o ho q hq j hj
    · have hi' : i < (h ++ l).length := by
        rcases hi with hi | hi
        · exact absurd (hp i hi).1 hlt
        · exact hi.2
      exact ⟨hi', fun o ho q hq j hj => .inr (b i o (by omega) ho q hq j hj)⟩
  · rw [a]
    refine ⟨by simp, fun i hi _ _ => List.getElem?_append_left hi, fun o ho => ⟨o, ?_, rfl, fun _ _ => rfl⟩⟩
    rw [List.getElem?_append_left (lt_of_lt_of_le he hn)]
    exact ho
  · rw [a]
    exact fun hc => closed_append hc (le_refl _) b
  · intro j hj
    have hcopy := c j hj
    rw [a]
    exact ⟨.inr (hcopy.1 j rfl), ⟨l, rfl⟩, hcopy⟩

theorem root_attr (r : Root) : r.attr ∈ fitAttributes := by cases r <;> decide

theorem Confined.validate {e n0 : Nat} (T : Name → ClassInfo A) (limit : Nat) (r : Root) (dflt : CObj A) (hd : Within n0 dflt) {P : Nat → Prop} {h : CHeap A} :
    Confined e n0 P (validate T limit e r dflt) h fun P' _ c => P' c := by
  refine Confined.bind (Confined.alloc dflt hd) fun P1 h1 d _ _ => ?_
  refine Confined.bind (Confined.getAttr e r.param) ?_
  rintro P2 h2 v - -
  refine Confined.bind (Confined.cloneTop T limit _) ?_
  rintro P3 h3 c - ⟨hc, -⟩
  refine Confined.bind (Q := fun P' _ _ => P' c) ?_ fun P4 h4 _ _ h => Confined.ret c h
  intro a1 a2 a3 a4 a5
  obtain ⟨P5, b1, b2, b3, b4, b5, _⟩ := Confined.setOwn r.attr (.ref c) (root_attr r) (fun j hj => by cases hj; exact hc) a1 a2 a3 a4 a5
  exact ⟨P5, b1, b2, b3, b4, b5, fun _ _ => b1 c hc⟩

theorem Confined.cloneAll {e n0 : Nat} (T : Name → ClassInfo A) (limit : Nat) (dflt : Root → CObj A) (hd : ∀ r, Within n0 (dflt r)) {P : Nat → Prop} {h : CHeap A} :
    Confined e n0 P (cloneAll T limit e dflt) h fun P' _ c => ∀ r, P' (c.at r) := by
  refine Confined.bind (Confined.validate T limit .discovery _ (hd _)) fun P1 h1 rd i1 c1 => ?_
  refine Confined.bind (Confined.validate T limit .composition _ (hd _)) fun P2 h2 sc i2 c2 => ?_
  refine Confined.bind (Confined.validate T limit .matching _ (hd _)) fun P3 h3 mt i3 c3 => ?_
  refine Confined.bind (Confined.validate T limit .logger _ (hd _)) fun P4 h4 lg i4 c4 => Confined.ret _ fun r => ?_
  cases r
  · exact i4 _ (i3 _ (i2 _ c1))
  · exact i4 _ (i3 _ c2)
  · exact i4 _ c3
  · exact c4

theorem Confined.keep {e n0 : Nat} {P : Nat → Prop} {h : CHeap A} {m : CM A α} {Q : (Nat → Prop) → CHeap A → α → Prop} {R : (Nat → Prop) → Prop} (hR : ∀ P P' : Nat → Prop, (∀ i, P i → P' i) → R P → R P')
    (hm : Confined e n0 P m h Q) (hr : R P) : Confined e n0 P m h fun P' _ _ => R P' := fun a b c d x => by
  obtain ⟨P', h1, h2, h3, h4, h5, _⟩ := hm a b c d x
  exact ⟨P', h1, h2, h3, h4, h5, fun _ _ => hR P P' h1 hr⟩

/-- All clones are in the set. -/
def AllIn (c : Clones) (P : Nat → Prop) : Prop := ∀ r, P (c.at r)

theorem AllIn.up (c : Clones) (P P' : Nat → Prop) (h : ∀ i, P i → P' i) (ha : AllIn c P) : AllIn c P' := fun r => h _ (ha r)

theorem Confined.propagate {e n0 : Nat} (T : Name → ClassInfo A) (c : Clones) {P : Nat → Prop} {h : CHeap A} (hc : AllIn c P) : Confined e n0 P (propagate T e c.rd c.sc) h fun _ _ _ => True := by
  refine Confined.intro fun _ _ _ hj _ => ?_
  refine Confined.bind (Confined.getAttr e "n_jobs") ?_
  rintro P1 h1 v - ⟨rfl, rfl, o, ho, hv⟩
  have hv' : ∀ (P' : Nat → Prop) j, v = .ref j → P' j := fun P' j hvj => absurd (hvj ▸ hv) (hj o ho j)
  refine Confined.bind (Confined.keep (AllIn.up c) (Confined.setParam T v ["n_jobs"] P1 h1 c.rd (hc .discovery) (hv' _)) hc) fun P2 h2 _ _ hc2 => ?_
  exact Confined.setParam T v ["n_jobs"] P2 h2 c.sc (hc2 .composition) (hv' _)

theorem Confined.initBounds {e n0 : Nat} (T : Name → ClassInfo A) (limit : Nat) (b : A) (c : Clones) {P : Nat → Prop} {h : CHeap A} (hc : AllIn c P) : Confined e n0 P (initBounds T limit c.rd b) h fun _ _ _ => True :=
  Confined.forAll (AllIn c) (AllIn.up c) _ (fun q _ P h hc => Confined.setParam T (.atom b) q.1 P h c.rd (hc .discovery) (fun _ hj => by cases hj)) P h hc

theorem Confined.initMatching {e n0 : Nat} (T : Name → ClassInfo A) (limit : Nat) (c : Clones) {P : Nat → Prop} {h : CHeap A} (hc : AllIn c P) : Confined e n0 P (initMatching T limit c.rd c.mt) h fun _ _ _ => True :=
  Confined.forAll (AllIn c) (AllIn.up c) _ (fun q _ P h hc => Confined.setParam T (.ref c.mt) q.1 P h c.rd (hc .discovery) (fun j hj => by cases hj; exact hc .matching)) P h hc

theorem Confined.setup {e n0 : Nat} (T : Name → ClassInfo A) (limit : Nat) (dflt : Root → CObj A) (hd : ∀ r, Within n0 (dflt r)) (b : A) {P : Nat → Prop} {h : CHeap A} :
    Confined e n0 P (setup T limit e dflt b) h fun P' _ c => AllIn c P' := by
  refine Confined.bind (Confined.cloneAll T limit dflt hd) fun P1 h1 c _ c1 => ?_
  refine Confined.bind (Confined.keep (AllIn.up c) (Confined.propagate T c c1) c1) fun P2 h2 _ _ c2 => ?_
  refine Confined.bind (Confined.keep (AllIn.up c) (Confined.initBounds T limit b c c2) c2) fun P3 h3 _ _ c3 => ?_
  refine Confined.bind (Confined.keep (AllIn.up c) (Confined.initMatching T limit c c3) c3) fun P4 h4 _ _ c4 => ?_
  exact Confined.ret c c4

theorem private_resolve {P : Nat → Prop} {h : CHeap A} (hp : Private P h) : ∀ (path : List Name) (i j : Nat), P i → resolve h path i = some j → P j := by
  intro path
  induction path with
  | nil =>
    intro i j hi hr
    unfold resolve at hr
    split_ifs at hr
    cases hr
    exact hi
  | cons n path ih =>
    intro i j hi hr
    unfold resolve at hr
    cases ho : h[i]? with
    | none => rw [ho] at hr; cases hr
    | some o =>
      rw [ho] at hr
      simp only [Option.bind_some] at hr
      cases ha : o.attr n with
      | none => rw [ha] at hr; cases hr
      | some v =>
        rw [ha] at hr
        cases v with
        | ref k => exact ih k j ((hp i hi).2 o ho (n, .ref k) (lookup_mem ha) k rfl) hr
        | atom a => cases hr
        | none => cases hr

theorem Confined.write {e n0 : Nat} (c : Clones) (w : Write A) {P : Nat → Prop} {h : CHeap A} (hc : AllIn c P) : Confined e n0 P (w.run e c) h fun _ _ _ => True := by
  cases w with
  | own n a =>
    dsimp only [Write.run]
    split_ifs with hn
    · exact Confined.setOwn n _ hn (fun _ hj => by cases hj)
    · exact Confined.raise _ _
  | «at» r path n v =>
    refine Confined.intro fun _ _ _ _ hp => ?_
    have herr : ∀ m : CM A Unit, m h = (h, .error .attributeError) → Confined e n0 P m h fun _ _ _ => True := fun m hm => Confined.pure (by rw [hm]) fun _ _ => trivial
    have hset : ∀ (m : CM A Unit) (i : Nat) (u : CVal A), P i → (∀ j, u = .ref j → P j) → m h = CM.setAttr i n u h → Confined e n0 P m h fun _ _ _ => True := by
      intro m i u hi hu hm b1 b2 b3 b4 b5
      rw [hm]
      exact Confined.setAttr i n u hi hu b1 b2 b3 b4 b5
    cases hr : resolve h path (c.at r) with
    | none => exact herr _ (by simp only [Write.run, hr])
    | some i =>
      have hi := private_resolve hp path _ i (hc r) hr
      cases v with
      | atom a => exact hset _ i (.atom a) hi (fun _ hj => by cases hj) (by simp only [Write.run, hr])
      | none => exact hset _ i .none hi (fun _ hj => by cases hj) (by simp only [Write.run, hr])
      | reached r' path' =>
        cases hr' : resolve h path' (c.at r') with
        | none => exact herr _ (by simp only [Write.run, hr, hr'])
        | some j => exact hset _ i (.ref j) hi (fun k hk => by cases hk; exact private_resolve hp path' _ j (hc r') hr') (by simp only [Write.run, hr, hr'])

theorem Confined.fitObjects {e n0 : Nat} (T : Name → ClassInfo A) (limit : Nat) (dflt : Root → CObj A) (hd : ∀ r, Within n0 (dflt r)) (b : A) (start : List (Name × A)) (training : List (Write A)) {P : Nat → Prop} {h : CHeap A} :
    Confined e n0 P (fitObjects T limit e dflt b start training) h fun _ _ _ => True := by
  refine Confined.bind (Q := fun _ _ _ => True) (Confined.forAll (fun _ => True) (fun _ _ _ _ => trivial) start (fun q _ P h _ => ?_) P h trivial) fun P1 h1 _ _ _ => ?_
  · dsimp only [Write.run]
    split_ifs with hn
    · exact Confined.setOwn q.1 _ hn (fun _ hj => by cases hj)
    · exact Confined.raise _ _
  · exact Confined.bind (Confined.setup T limit dflt hd b) fun P2 h2 c _ hc => Confined.forAll (AllIn c) (AllIn.up c) training (fun w _ P h hc => Confined.write c w hc) P2 h2 hc

/-- `e` is an estimator: it has the parameters of `SupRB` (or some of them), and a plain `n_jobs`. -/
def Estimator (T : Name → ClassInfo A) (h : CHeap A) (e : Nat) : Prop :=
  (∃ (o : CObj A) (ps : List Name), h[e]? = some o ∧ (T o.cls).params = some ps ∧ ∀ n ∈ ps, n ∈ suprbParams) ∧ PlainJobs e h

/-- `fit` assigns no parameter. -/
theorem suprbParams_kept : ∀ n ∈ suprbParams, n ∉ fitAttributes := by decide

theorem Estimator.lt {T : Name → ClassInfo A} {h : CHeap A} {e : Nat} (he : Estimator T h e) : e < h.length := by
  obtain ⟨⟨o, _, ho, _⟩, _⟩ := he
  exact (List.getElem?_eq_some_iff.mp ho).1

theorem Frame.estimator {T : Name → ClassInfo A} {h h' : CHeap A} {e : Nat} {P : Nat → Prop} (f : Frame e P h h') (he : Estimator T h e) : Estimator T h' e := by
  refine ⟨?_, f.jobs he.lt he.2⟩
  obtain ⟨⟨o, ps, ho, hp, hd⟩, _⟩ := he
  obtain ⟨o', a, b, _⟩ := f.own o ho
  exact ⟨o', ps, a, by rw [b]; exact hp, hd⟩

/-- What is not private looks the same afterwards. -/
theorem Frame.look {T : Name → ClassInfo A} {h h' : CHeap A} {e : Nat} (f : Frame e (fun _ => False) h h') (he : Estimator T h e) (hc : Closed h) (path : List Name) (v : CVal A) (hv : Valid h v) :
    look T h' path v = look T h path v := by
  refine look_congr T h h' (fun i => i < h.length) (fun i hi => ?_) path v (fun i hi => by subst hi; exact hv)
  have hoi : h[i]? = some h[i] := List.getElem?_eq_getElem hi
  by_cases hie : i = e
  · subst hie
    obtain ⟨⟨o, ps, ho, hp, hd⟩, _⟩ := he
    obtain ⟨o', a, b, c⟩ := f.own o ho
    have hs : settings T o = ps := by unfold settings; rw [hp]
    have hs' : settings T o' = ps := by unfold settings; rw [b, hp]
    exact ⟨o, o', ho, a, b, hs'.trans hs.symm, fun n hn => c n (suprbParams_kept n (hd n (hs ▸ hn))), fun n _ j hj => closed_attr hc ho hj⟩
  · exact ⟨h[i], h[i], hoi, by rw [f.other i hi id hie, hoi], rfl, rfl, fun _ _ => rfl, fun n _ j hj => closed_attr hc hoi hj⟩

theorem empty_private (h : CHeap A) : Private (fun _ => False) h := fun _ hi => hi.elim

/-! ## C112: `fit` leaves the parameters as they are -/

/-- Whatever the classes, the configuration, the data and the training: after `fit`, successful or not, every object that existed before and is not the estimator itself is completely unchanged, the estimator has the attributes it had apart from those assigned by `fit`, and every
parameter, also of nested components, has the value it had. -/
theorem C112_parameters (T : Name → ClassInfo A) (limit e : Nat) (dflt : Root → CObj A) (b : A) (start : List (Name × A)) (training : List (Write A)) (h : CHeap A)
    (hc : Closed h) (he : Estimator T h e) (hd : ∀ r, Within h.length (dflt r)) :
    let h' := (fitObjects T limit e dflt b start training h).1
    (∀ i < h.length, i ≠ e → h'[i]? = h[i]?) ∧
      (∀ o : CObj A, h[e]? = some o → ∃ o' : CObj A, h'[e]? = some o' ∧ o'.cls = o.cls ∧ ∀ n, n ∉ fitAttributes → o'.attr n = o.attr n) ∧
      ∀ (path : List Name) (v : CVal A), Valid h v → look T h' path v = look T h path v := by
  obtain ⟨_, _, _, _, f, _⟩ := Confined.fitObjects (n0 := h.length) T limit dflt hd b start training he.lt (le_refl _) id he.2 (empty_private h)
  exact ⟨fun i hi hie => f.other i hi id hie, f.own, fun path v hv => f.look he hc path v hv⟩

/-- Specification: the parameter of the estimator that configures a component. -/
def settingName : Root → Name
  | .discovery => "rule_discovery"
  | .composition => "solution_composition"
  | .matching => "matching_type"
  | .logger => "logger"

/-- Specification: the attribute of the estimator with the component that training works with. -/
def workingName : Root → Name
  | .discovery => "rule_discovery_"
  | .composition => "solution_composition_"
  | .matching => "matching_type_"
  | .logger => "logger_"

theorem settingName_eq (r : Root) : settingName r = r.param := by cases r <;> rfl

theorem workingName_eq (r : Root) : workingName r = r.attr := by cases r <;> rfl

/-- The component configured for `r`, the default if there is none. -/
def lookGiven (T : Name → ClassInfo A) (h : CHeap A) (e : Nat) (r : Root) (d : CObj A) (path : List Name) : Look A :=
  match (h[e]?).bind fun o => o.attr (settingName r) with
  | none => .missing
  | some .none => look T (h ++ [d]) path (.ref h.length)
  | some v => look T h path v

theorem root_param (r : Root) : r.param ∉ fitAttributes := by cases r <;> decide

theorem look_default {T : Name → ClassInfo A} {h h' : CHeap A} {e : Nat} (f : Frame e (fun _ => False) h h') (he : Estimator T h e) (hc : Closed h) (hc' : Closed h') (d : CObj A) (hd : Within h.length d) (path : List Name) :
    look T (h' ++ [d]) path (.ref h'.length) = look T (h ++ [d]) path (.ref h.length) := by
  have e1 : (h' ++ [d])[h'.length]? = some d := by simp
  have e2 : (h ++ [d])[h.length]? = some d := by simp
  cases path with
  | nil => unfold Comp.look; rw [e1, e2]
  | cons n path =>
    unfold Comp.look
    rw [e1, e2]
    dsimp only
    split_ifs with hn
    · cases ha : d.attr n with
      | none => rfl
      | some v =>
        have hv : Valid h v := by
          cases v with
          | ref j => exact hd (n, .ref j) (lookup_mem ha) j rfl
          | atom a => trivial
          | none => trivial
        dsimp only
        rw [look_append T h' [d] hc' path v (valid_mono f.len hv), look_append T h [d] hc path v hv, f.look he hc path v hv]
    · rfl

theorem lookGiven_frame {T : Name → ClassInfo A} {h h' : CHeap A} {e : Nat} (f : Frame e (fun _ => False) h h') (he : Estimator T h e) (hc : Closed h) (hc' : Closed h') (r : Root) (d : CObj A) (hd : Within h.length d) (path : List Name) :
    lookGiven T h' e r d path = lookGiven T h e r d path := by
  have he' := he
  obtain ⟨⟨o, ps, ho, -, -⟩, -⟩ := he'
  obtain ⟨o', a, b, c⟩ := f.own o ho
  unfold lookGiven
  simp only [settingName_eq]
  rw [ho, a]
  simp only [Option.bind_some]
  rw [c _ (root_param r)]
  cases ha : o.attr r.param with
  | none => rfl
  | some v =>
    cases v with
    | none => exact look_default f he hc hc' d hd path
    | atom x => exact f.look he hc path _ trivial
    | ref j => exact f.look he hc path _ (closed_attr hc ho ha)

theorem look_setAttr_new {T : Name → ClassInfo A} {n0 e : Nat} {h : CHeap A} (he : e < n0) (hn : NewClosed n0 h) (n : Name) (u : CVal A) (path : List Name) (w : CVal A) (hw : NewVal n0 h w) :
    look T (CM.setAttr e n u h).1 path w = look T h path w := by
  refine look_congr T h _ (fun i => n0 ≤ i ∧ i < h.length) (fun i hi => ?_) path w hw
  have hoi : h[i]? = some h[i] := List.getElem?_eq_getElem hi.2
  refine ⟨h[i], h[i], hoi, ?_, rfl, rfl, fun _ _ => rfl, fun m _ j hj => hn i h[i] hi.1 hoi (m, .ref j) (lookup_mem hj) j rfl⟩
  have hne : e ≠ i := by omega
  simp [CM.setAttr, hne, hi.2]

theorem validate_look {T : Name → ClassInfo A} {limit e : Nat} {r : Root} {d : CObj A} {h h' : CHeap A} {c : Nat} (hc : Closed h) (he : Estimator T h e) (hd : Within h.length d)
    (hr : validate T limit e r d h = (h', .ok c)) : (h.length ≤ c ∧ c < h'.length) ∧ ∀ path, look T h' path (.ref c) = lookGiven T h e r d path := by
  have hel := he.lt
  obtain ⟨⟨o, ps, ho, -, -⟩, -⟩ := he
  have ho1 : (h ++ [d])[e]? = some o := by rw [List.getElem?_append_left hel]; exact ho
  have hclosed : Closed (h ++ [d]) := by
    have h1 := Confined.alloc (e := e) (n0 := h.length) (P := fun _ => False) (h := h) d hd hel (le_refl _) id
    intro i p hp q hq
    by_cases hlt : i < h.length
    · rw [List.getElem?_append_left hlt] at hp
      exact valid_mono (by simp) (hc i p hp q hq)
    · rw [List.getElem?_append_right (by omega)] at hp
      have hp2 : p = d := by
        cases hk : i - h.length with
        | zero => rw [hk] at hp; simpa using hp.symm
        | succ k => rw [hk] at hp; simp at hp
      subst hp2
      cases hq2 : q.2 with
      | ref j => exact lt_of_lt_of_le (hd q hq j hq2) (by simp)
      | atom a => trivial
      | none => trivial
  unfold Comp.validate at hr
  simp only [CM.bind, CM.alloc, CM.getAttr, CM.object, ho1] at hr
  unfold lookGiven
  simp only [settingName_eq]
  rw [ho]
  simp only [Option.bind_some]
  cases ha : o.attr r.param with
  | none => rw [ha] at hr; simp [CM.raise] at hr
  | some v =>
    rw [ha] at hr
    simp only [CM.ret] at hr
    generalize hw : orDefault h.length v = w at hr
    obtain ⟨l, a1, a2, a3⟩ := cloneTop_adds T (h ++ [d]).length limit w (h ++ [d]) (le_refl _) (le_refl _) (newClosed_self _)
    cases hcl : cloneTop T limit w (h ++ [d]) with
    | mk h1 res =>
      rw [hcl] at hr a1 a3
      dsimp only at hr a1 a3
      subst a1
      cases res with
      | error x => simp at hr
      | ok k =>
        simp only [CM.setAttr, Prod.mk.injEq, Except.ok.injEq] at hr
        obtain ⟨hh, rfl⟩ := hr
        have hcopy := a3 k rfl
        have hk := hcopy.1 k rfl
        refine ⟨⟨by rw [List.length_append] at hk; omega, by rw [← hh, List.length_modify]; exact hk.2⟩, fun path => ?_⟩
        have h2 := look_setAttr_new (T := T) (e := e) (by rw [List.length_append]; omega) a2 r.attr (.ref k) path (.ref k) hcopy.1
        simp only [CM.setAttr, hh] at h2
        rw [h2]
        have hvw : Valid (h ++ [d]) w := by
          subst hw
          cases v with
          | none => exact (by simp : h.length < (h ++ [d]).length)
          | atom x => trivial
          | ref j => exact valid_mono (by simp) (closed_attr hc ho ha)
        rw [hcopy.2 hclosed hvw path]
        subst hw
        cases v with
        | none => rfl
        | atom x => exact look_append T h [d] hc path _ trivial
        | ref j => exact look_append T h [d] hc path _ (closed_attr hc ho ha)

/-- The state is as at the beginning of `fit`, as far as the caller's objects are concerned. -/
structure Kept (T : Name → ClassInfo A) (h0 : CHeap A) (e : Nat) (h : CHeap A) : Prop where
  frame : Frame e (fun _ => False) h0 h
  closed : Closed h
  est : Estimator T h e

theorem Kept.step {T : Name → ClassInfo A} {h0 h : CHeap A} {e : Nat} (k : Kept T h0 e h) {m : CM A α} {Q : (Nat → Prop) → CHeap A → α → Prop} (hm : Confined e h0.length (fun _ => False) m h Q) (he : e < h0.length) : Kept T h0 e (m h).1 ∧ Frame e (fun _ => False) h (m h).1 := by
  obtain ⟨_, _, _, _, f, hcl, _⟩ := hm he k.frame.len id k.est.2 (empty_private h)
  exact ⟨⟨k.frame.trans (fun _ h _ => h.elim) f, hcl k.closed, f.estimator k.est⟩, f⟩

theorem validate_kept {T : Name → ClassInfo A} {limit e : Nat} {h0 h h' : CHeap A} {r : Root} {d : CObj A} {c : Nat} (k : Kept T h0 e h) (he0 : Estimator T h0 e) (hc0 : Closed h0) (hd : Within h0.length d)
    (hr : validate T limit e r d h = (h', .ok c)) :
    Kept T h0 e h' ∧ Frame e (fun _ => False) h h' ∧ h0.length ≤ c ∧ c < h'.length ∧ ∀ path, look T h' path (.ref c) = lookGiven T h0 e r d path := by
  have hd' : Within h.length d := fun q hq j hj => lt_of_lt_of_le (hd q hq j hj) k.frame.len
  obtain ⟨a, b⟩ := validate_look k.closed k.est hd' hr
  obtain ⟨k', f⟩ := k.step (Confined.validate T limit r d hd) he0.lt
  rw [hr] at k' f
  exact ⟨k', f, k.frame.len.trans a.1, a.2, fun path => (b path).trans (lookGiven_frame k.frame he0 hc0 k.closed r d hd path)⟩

/-- `fit` works on clones: each is a new object that has the class and, at every depth, the parameters of the configured component, or of the default if none is configured. -/
theorem C112_clones (T : Name → ClassInfo A) (limit e : Nat) (dflt : Root → CObj A) (h h' : CHeap A) (c : Clones) (hc : Closed h) (he : Estimator T h e) (hd : ∀ r, Within h.length (dflt r))
    (hr : cloneAll T limit e dflt h = (h', .ok c)) (r : Root) : h.length ≤ c.at r ∧ ∀ path, look T h' path (.ref (c.at r)) = lookGiven T h e r (dflt r) path := by
  unfold cloneAll at hr
  simp only [CM.bind] at hr
  have k0 : Kept T h e h := ⟨Frame.refl e _ h, hc, he⟩
  cases h1e : validate T limit e .discovery (dflt .discovery) h with
  | mk h1 r1 =>
    rw [h1e] at hr
    cases r1 with
    | error x => simp at hr
    | ok rd =>
      obtain ⟨k1, f1, n1, m1, l1⟩ := validate_kept k0 he hc (hd _) h1e
      dsimp only at hr
      cases h2e : validate T limit e .composition (dflt .composition) h1 with
      | mk h2 r2 =>
        rw [h2e] at hr
        cases r2 with
        | error x => simp at hr
        | ok sc =>
          obtain ⟨k2, f2, n2, m2, l2⟩ := validate_kept k1 he hc (hd _) h2e
          dsimp only at hr
          cases h3e : validate T limit e .matching (dflt .matching) h2 with
          | mk h3 r3 =>
            rw [h3e] at hr
            cases r3 with
            | error x => simp at hr
            | ok mt =>
              obtain ⟨k3, f3, n3, m3, l3⟩ := validate_kept k2 he hc (hd _) h3e
              dsimp only at hr
              cases h4e : validate T limit e .logger (dflt .logger) h3 with
              | mk h4 r4 =>
                rw [h4e] at hr
                cases r4 with
                | error x => simp at hr
                | ok lg =>
                  obtain ⟨k4, f4, n4, m4, l4⟩ := validate_kept k3 he hc (hd _) h4e
                  simp only [CM.ret, Prod.mk.injEq, Except.ok.injEq] at hr
                  obtain ⟨rfl, rfl⟩ := hr
                  have m14 : rd < h2.length := lt_of_lt_of_le m1 f2.len
                  have m15 : rd < h3.length := lt_of_lt_of_le m14 f3.len
                  have m24 : sc < h3.length := lt_of_lt_of_le m2 f3.len
                  cases r with
                  | discovery => exact ⟨n1, fun path => by
                      show look T h4 path (.ref rd) = _
                      rw [f4.look k3.est k3.closed path (.ref rd) m15, f3.look k2.est k2.closed path (.ref rd) m14, f2.look k1.est k1.closed path (.ref rd) m1, l1]⟩
                  | composition => exact ⟨n2, fun path => by
                      show look T h4 path (.ref sc) = _
                      rw [f4.look k3.est k3.closed path (.ref sc) m24, f3.look k2.est k2.closed path (.ref sc) m2, l2]⟩
                  | matching => exact ⟨n3, fun path => by
                      show look T h4 path (.ref mt) = _
                      rw [f4.look k3.est k3.closed path (.ref mt) m3, l3]⟩
                  | logger => exact ⟨n4, l4⟩

theorem validate_attr {T : Name → ClassInfo A} {limit e : Nat} {r : Root} {d : CObj A} {h h' : CHeap A} {c : Nat} {o : CObj A} (ho : h[e]? = some o) (hr : validate T limit e r d h = (h', .ok c)) :
    ∃ o' : CObj A, h'[e]? = some o' ∧ o'.attr (workingName r) = some (.ref c) ∧ ∀ n, n ≠ workingName r → o'.attr n = o.attr n := by
  have hel : e < h.length := by
    by_contra hi
    rw [List.getElem?_eq_none (by omega)] at ho
    cases ho
  have ho1 : (h ++ [d])[e]? = some o := by rw [List.getElem?_append_left hel]; exact ho
  rw [workingName_eq]
  unfold Comp.validate at hr
  simp only [CM.bind, CM.alloc, CM.getAttr, CM.object, ho1] at hr
  cases ha : o.attr r.param with
  | none => rw [ha] at hr; simp [CM.raise] at hr
  | some v =>
    rw [ha] at hr
    simp only [CM.ret] at hr
    obtain ⟨l, a1, -, -⟩ := cloneTop_adds T (h ++ [d]).length limit (orDefault h.length v) (h ++ [d]) (le_refl _) (le_refl _) (newClosed_self _)
    cases hcl : cloneTop T limit (orDefault h.length v) (h ++ [d]) with
    | mk h1 res =>
      rw [hcl] at hr a1
      dsimp only at hr a1
      subst a1
      cases res with
      | error x => simp at hr
      | ok k =>
        simp only [CM.setAttr, Prod.mk.injEq, Except.ok.injEq] at hr
        obtain ⟨hh, rfl⟩ := hr
        have ho2 : (h ++ [d] ++ l)[e]? = some o := by rw [List.getElem?_append_left (by simp; omega)]; exact ho1
        refine ⟨{ o with attrs := setIn r.attr (.ref k) o.attrs }, by rw [← hh, List.getElem?_modify_eq, ho2]; rfl, ?_, fun n hn => ?_⟩
        · rw [CObj.attr, lookup_setIn, if_pos rfl]
        · rw [CObj.attr, lookup_setIn, if_neg hn]
          rfl

/-- The clones are where training looks for them: the attributes `rule_discovery_`, `solution_composition_`, `matching_type_` and `logger_` of the estimator. -/
theorem C112_stored (T : Name → ClassInfo A) (limit e : Nat) (dflt : Root → CObj A) (h h' : CHeap A) (c : Clones) (he : Estimator T h e)
    (hr : cloneAll T limit e dflt h = (h', .ok c)) : ∃ o' : CObj A, h'[e]? = some o' ∧ ∀ r, o'.attr (workingName r) = some (.ref (c.at r)) := by
  obtain ⟨⟨o, ps, ho, -, -⟩, -⟩ := he
  unfold cloneAll at hr
  simp only [CM.bind] at hr
  cases h1e : validate T limit e .discovery (dflt .discovery) h with
  | mk h1 r1 =>
    rw [h1e] at hr
    cases r1 with
    | error x => simp at hr
    | ok rd =>
      obtain ⟨o1, a1, b1, c1⟩ := validate_attr ho h1e
      dsimp only at hr
      cases h2e : validate T limit e .composition (dflt .composition) h1 with
      | mk h2 r2 =>
        rw [h2e] at hr
        cases r2 with
        | error x => simp at hr
        | ok sc =>
          obtain ⟨o2, a2, b2, c2⟩ := validate_attr a1 h2e
          dsimp only at hr
          cases h3e : validate T limit e .matching (dflt .matching) h2 with
          | mk h3 r3 =>
            rw [h3e] at hr
            cases r3 with
            | error x => simp at hr
            | ok mt =>
              obtain ⟨o3, a3, b3, c3⟩ := validate_attr a2 h3e
              dsimp only at hr
              cases h4e : validate T limit e .logger (dflt .logger) h3 with
              | mk h4 r4 =>
                rw [h4e] at hr
                cases r4 with
                | error x => simp at hr
                | ok lg =>
                  obtain ⟨o4, a4, b4, c4⟩ := validate_attr a3 h4e
                  simp only [CM.ret, Prod.mk.injEq, Except.ok.injEq] at hr
                  obtain ⟨rfl, rfl⟩ := hr
                  refine ⟨o4, a4, fun r => ?_⟩
                  cases r with
                  | discovery => rw [c4 _ (by decide), c3 _ (by decide), c2 _ (by decide), b1]; rfl
                  | composition => rw [c4 _ (by decide), c3 _ (by decide), b2]; rfl
                  | matching => rw [c4 _ (by decide), b3]; rfl
                  | logger => exact b4

/-- The clones share nothing with the objects that existed before: everything reached from them, at any depth and by any attribute, is new. -/
theorem C112_separate (T : Name → ClassInfo A) (limit e : Nat) (dflt : Root → CObj A) (h h' : CHeap A) (c : Clones) (he : Estimator T h e) (hd : ∀ r, Within h.length (dflt r))
    (hr : cloneAll T limit e dflt h = (h', .ok c)) (r : Root) (path : List Name) (j : Nat) (hj : resolve h' path (c.at r) = some j) : h.length ≤ j := by
  obtain ⟨P', _, hnew, hp, _, _, hq⟩ := Confined.cloneAll (n0 := h.length) T limit dflt hd he.lt (le_refl _) id he.2 (empty_private h)
  rw [hr] at hp hq
  exact hnew j (private_resolve hp path _ j (hq c rfl r) hj) id

/-- A second `fit` starts from the same components as the first: whatever the first `fit` did (also if it failed), the clones made by the second one have, at every depth, the same parameters as those made by the first. -/
theorem C112_again (T : Name → ClassInfo A) (limit e : Nat) (dflt : Root → CObj A) (b : A) (start : List (Name × A)) (training : List (Write A)) (h h1 h2 : CHeap A) (c c2 : Clones)
    (hc : Closed h) (he : Estimator T h e) (hd : ∀ r, Within h.length (dflt r))
    (hr : cloneAll T limit e dflt h = (h1, .ok c)) (hr2 : cloneAll T limit e dflt (fitObjects T limit e dflt b start training h).1 = (h2, .ok c2)) (r : Root) (path : List Name) :
    look T h2 path (.ref (c2.at r)) = look T h1 path (.ref (c.at r)) := by
  obtain ⟨k, f⟩ := Kept.step ⟨Frame.refl e _ h, hc, he⟩ (Confined.fitObjects (n0 := h.length) T limit dflt hd b start training) he.lt
  have hd' : ∀ r, Within (fitObjects T limit e dflt b start training h).1.length (dflt r) := fun r q hq j hj => lt_of_lt_of_le (hd r q hq j hj) f.len
  rw [(C112_clones T limit e dflt _ h2 c2 k.closed k.est hd' hr2 r).2 path, (C112_clones T limit e dflt h h1 c hc he hd hr r).2 path]
  exact lookGiven_frame f he hc k.closed r (dflt r) (hd r) path

/-! ## C113: configuring one model does not change another -/

theorem resolve_cons {h : CHeap A} {n : Name} {i j : Nat} {o : CObj A} (ho : h[i]? = some o) (ha : o.attr n = some (.ref j)) (p : List Name) : resolve h (n :: p) i = resolve h p j := by
  rw [resolve, ho]
  simp only [Option.bind_some, ha]

theorem setParam_other (T : Name → ClassInfo A) (v : CVal A) (h : CHeap A) (k : Nat) : ∀ (path : List Name) (i : Nat), (∀ p, resolve h p i ≠ some k) → (setParam T path v i h).1[k]? = h[k]? := by
  intro path
  induction path with
  | nil => intro i _; rfl
  | cons n rest ih =>
    intro i hi
    unfold Comp.setParam CM.bind CM.object
    cases ho : h[i]? with
    | none => rfl
    | some o =>
      dsimp only
      cases (T o.cls).params with
      | none => rfl
      | some ps =>
        dsimp only
        by_cases hn : n ∈ ps
        swap
        · rw [if_pos hn]; rfl
        · rw [if_neg (not_not.mpr hn)]
          cases rest with
          | nil =>
            have hne : i ≠ k := by
              intro hik
              refine hi [] ?_
              rw [resolve, if_pos (List.getElem?_eq_some_iff.mp ho).1, hik]
            have hs : (CM.setAttr i n v h).1[k]? = h[k]? := by simp [CM.setAttr, hne]
            simp only [CM.setAttr] at hs ⊢
            generalize h.modify i (fun o => { o with attrs := setIn n v o.attrs }) = hm at hs ⊢
            cases hm[i]? with
            | none => exact hs
            | some o' =>
              dsimp only
              cases (T o.cls).setCheck hm o' n <;> exact hs
          | cons m rest =>
            dsimp only
            cases ha : o.attr n with
            | none => rfl
            | some w =>
              cases w with
              | ref j => exact ih j fun p => by rw [← resolve_cons ho ha]; exact hi (n :: p)
              | atom a => rfl
              | none => rfl

theorem walk_reach (h : CHeap A) : ∀ (path : List Name) (i j : Nat), i < h.length → walkAttrs h path i = some j → j < h.length → ∃ p, resolve h p i = some j := by
  intro path
  induction path with
  | nil =>
    intro i j hi hw _
    cases hw
    exact ⟨[], by rw [resolve, if_pos hi]⟩
  | cons n rest ih =>
    intro i j hi hw hj
    unfold walkAttrs at hw
    have ho : h[i]? = some h[i] := List.getElem?_eq_getElem hi
    rw [ho] at hw
    simp only [Option.bind_some] at hw
    cases ha : h[i].attr n with
    | none => rw [ha] at hw; exact ih i j hi hw hj
    | some w =>
      rw [ha] at hw
      cases w with
      | atom a => cases hw
      | none => cases hw
      | ref k =>
        by_cases hk : k < h.length
        · obtain ⟨p, hp⟩ := ih k j hk hw hj
          exact ⟨n :: p, by rw [resolve_cons ho ha]; exact hp⟩
        · exfalso
          have hstay : ∀ (q : List Name) (x : Nat), walkAttrs h q k = some x → x = k := by
            intro q
            induction q with
            | nil => intro x hx; cases hx; rfl
            | cons m q ihq =>
              intro x hx
              unfold walkAttrs at hx
              rw [List.getElem?_eq_none (by omega)] at hx
              exact ihq x hx
          have := hstay rest j hw
          omega

theorem wrapperSet_other (v : CVal A) (h : CHeap A) (k : Nat) (path : List Name) (n : Name) (i : Nat) (hil : i < h.length) (hi : ∀ p, resolve h p i ≠ some k) : (wrapperSet path n v i h).1[k]? = h[k]? := by
  unfold wrapperSet
  cases hw : walkAttrs h path i with
  | none => rfl
  | some j =>
    dsimp only
    cases ho : h[j]? with
    | none => rfl
    | some o =>
      simp only [Option.bind_some]
      cases o.attr n with
      | none => rfl
      | some _ =>
        have hjl := (List.getElem?_eq_some_iff.mp ho).1
        have hne : j ≠ k := by
          rintro rfl
          obtain ⟨p, hp⟩ := walk_reach h path i j hil hw hjl
          exact hi p hp
        simp [CM.setAttr, hne]

/-- The two objects have no object in common: what is reached from the one is not reached from the other. -/
def Apart (h : CHeap A) (a b : Nat) : Prop := ∀ p q j, resolve h p a = some j → resolve h q b ≠ some j

theorem resolve_lt (h : CHeap A) : ∀ (q : List Name) (i j : Nat), resolve h q i = some j → j < h.length := by
  intro q
  induction q with
  | nil =>
    intro i j hr
    unfold resolve at hr
    split_ifs at hr with hi
    cases hr
    exact hi
  | cons n q ih =>
    intro i j hr
    unfold resolve at hr
    cases ho : (h[i]?).bind fun o => o.attr n with
    | none => rw [ho] at hr; cases hr
    | some w =>
      rw [ho] at hr
      cases w with
      | ref k => exact ih k j hr
      | atom a => cases hr
      | none => cases hr

theorem resolve_snoc (h : CHeap A) (n : Name) (k : Nat) (hk : k < h.length) : ∀ (q : List Name) (i j : Nat) (o : CObj A), resolve h q i = some j → h[j]? = some o → o.attr n = some (.ref k) →
    resolve h (q ++ [n]) i = some k := by
  intro q
  induction q with
  | nil =>
    intro i j o hr ho ha
    unfold resolve at hr
    split_ifs at hr with hi
    cases hr
    rw [List.nil_append, resolve_cons ho ha, resolve, if_pos hk]
  | cons m q ih =>
    intro i j o hr ho ha
    unfold resolve at hr
    rw [List.cons_append, resolve]
    cases hb : (h[i]?).bind fun o => o.attr m with
    | none => rw [hb] at hr; cases hr
    | some w =>
      rw [hb] at hr
      cases w with
      | ref x => exact ih x j o hr ho ha
      | atom a => cases hr
      | none => cases hr

theorem look_apart (T : Name → ClassInfo A) (h h' : CHeap A) (hc : Closed h) (a b : Nat) (hb : b < h.length) (hab : Apart h a b) (hother : ∀ k, (∀ p, resolve h p a ≠ some k) → h'[k]? = h[k]?) (path : List Name) :
    look T h' path (.ref b) = look T h path (.ref b) := by
  refine look_congr T h h' (fun i => ∃ q, resolve h q b = some i) (fun i hi => ?_) path (.ref b) (fun i hi => by cases hi; exact ⟨[], by rw [resolve, if_pos hb]⟩)
  obtain ⟨q, hq⟩ := hi
  have hil := resolve_lt h q b i hq
  have ho : h[i]? = some h[i] := List.getElem?_eq_getElem hil
  refine ⟨h[i], h[i], ho, ?_, rfl, rfl, fun _ _ => rfl, fun n _ j hj => ⟨q ++ [n], resolve_snoc h n j (closed_attr hc ho hj) q b i h[i] hq ho hj⟩⟩
  rw [hother i (fun p hp => hab p q i hp hq), ho]

/-- Models that have no object in common are independent: neither `set_params` nor `SupRBWrapper`, applied to the one, changes a setting of the other, at any depth, whether or not the call succeeds. Missing for the full claim: models that have objects in common, in particular default
components (see `C113_set_params_refuted`). -/
theorem C113_independent_partial (T : Name → ClassInfo A) (h : CHeap A) (hc : Closed h) (a b : Nat) (ha : a < h.length) (hb : b < h.length) (hab : Apart h a b) (key : List Name) (n : Name) (v : CVal A) (path : List Name) :
    look T (setParam T key v a h).1 path (.ref b) = look T h path (.ref b) ∧ look T (wrapperSet key n v a h).1 path (.ref b) = look T h path (.ref b) :=
  ⟨look_apart T h _ hc a b hb hab (fun k hk => setParam_other T v h k key a hk) path, look_apart T h _ hc a b hb hab (fun k hk => wrapperSet_other v h k key n a ha hk) path⟩

/-! ## Examples and counterexamples -/

/-- Some classes with some of their parameters (suprb/suprb.py:80-93, suprb/optimizer/rule/es/es.py:50-64, suprb/optimizer/rule/mutation.py:15-21). -/
def exClasses : Name → ClassInfo ℚ := fun cls =>
  if cls = "SupRB" then { params := some ["rule_discovery", "solution_composition", "matching_type", "logger", "n_jobs"] }
  else if cls = "ES1xLambda" then { params := some ["n_iter", "mutation", "n_jobs"] }
  else if cls = "HalfnormIncrease" then { params := some ["matching_type", "sigma"] }
  else if cls = "Mixing" then { params := none }
  else { params := some ["n_jobs", "mixing"] }

/-- The default arguments of `ES1xLambda` (suprb/optimizer/rule/es/es.py:50-64); the object 0 is the default mutation `HalfnormIncrease(sigma=1.22)`. -/
def exES : List (Name × CVal ℚ) := [("n_iter", .atom 10000), ("mutation", .ref 0), ("n_jobs", .atom 1)]

/-- The default arguments of `SupRB` (suprb/suprb.py:80-93). -/
def exSupRB : List (Name × CVal ℚ) := [("rule_discovery", .none), ("solution_composition", .none), ("matching_type", .none), ("logger", .none), ("n_jobs", .atom 1)]

/-- After `import suprb`: the default arguments exist. -/
def exImported : CHeap ℚ := [{ cls := "HalfnormIncrease", attrs := [("matching_type", .none), ("sigma", .atom (61 / 50))] }]

/-- `a = SupRB(rule_discovery=ES1xLambda()); b = SupRB(rule_discovery=ES1xLambda()); c = SupRB()`. -/
def exModels : CM ℚ (Nat × Nat × Nat) :=
  (instantiate "ES1xLambda" exES []).bind fun d => (instantiate "SupRB" exSupRB [("rule_discovery", .ref d)]).bind fun a =>
  (instantiate "ES1xLambda" exES []).bind fun d' => (instantiate "SupRB" exSupRB [("rule_discovery", .ref d')]).bind fun b =>
  (instantiate "SupRB" exSupRB []).bind fun c => CM.ret (a, b, c)

/-- The default components `fit` constructs: `ES1xLambda()` etc. (suprb/suprb.py:168-171). -/
def exDefaults : Root → CObj ℚ
  | .discovery => { cls := "ES1xLambda", attrs := exES }
  | .composition => { cls := "GeneticAlgorithm", attrs := [("n_jobs", .atom 1), ("mixing", .none)] }
  | .matching => { cls := "OrderedBound", attrs := [("n_jobs", .none), ("mixing", .none)] }
  | .logger => { cls := "DefaultLogger", attrs := [("n_jobs", .none), ("mixing", .none)] }

/-- The statement of C113 for `set_params` fails: `a` and `b` are constructed by separate calls and no object is passed to both, but both contain the default mutation of `ES1xLambda`; `a.set_params(rule_discovery__mutation__sigma=3)` succeeds and changes the setting of `b` from 1.22 to 3. -/
theorem C113_set_params_refuted : ∃ (T : Name → ClassInfo ℚ) (h h' : CHeap ℚ) (a b c : Nat), exModels exImported = (h, .ok (a, b, c)) ∧ a ≠ b ∧
    setParam T ["rule_discovery", "mutation", "sigma"] (.atom 3) a h = (h', .ok ()) ∧
    look T h ["rule_discovery", "mutation", "sigma"] (.ref b) = .atom (61 / 50) ∧ look T h' ["rule_discovery", "mutation", "sigma"] (.ref b) = .atom 3 :=
  ⟨exClasses, (exModels exImported).1, (setParam exClasses ["rule_discovery", "mutation", "sigma"] (.atom 3) 2 (exModels exImported).1).1, 2, 4, 5, rfl, by decide, rfl, by decide +kernel, by decide +kernel⟩

/-- The same with `SupRBWrapper(suprb=a, rule_discovery__mutation__sigma=3)`. -/
theorem C113_wrapper_refuted : ∃ (T : Name → ClassInfo ℚ) (h h' : CHeap ℚ) (a b c : Nat), exModels exImported = (h, .ok (a, b, c)) ∧ a ≠ b ∧
    wrapperSet ["rule_discovery", "mutation"] "sigma" (.atom 3) a h = (h', .ok ()) ∧
    look T h ["rule_discovery", "mutation", "sigma"] (.ref b) = .atom (61 / 50) ∧ look T h' ["rule_discovery", "mutation", "sigma"] (.ref b) = .atom 3 :=
  ⟨exClasses, (exModels exImported).1, (wrapperSet ["rule_discovery", "mutation"] "sigma" (.atom 3) 2 (exModels exImported).1).1, 2, 4, 5, rfl, by decide, rfl, by decide +kernel, by decide +kernel⟩

/-- Even a model without any configuration is affected: after the same call for `a`, `c.fit(X, y)` with `c = SupRB()` trains with `sigma = 3` instead of 1.22. -/
theorem C113_default_refuted : ∃ (T : Name → ClassInfo ℚ) (h h' g g' : CHeap ℚ) (a b c : Nat) (k k' : Clones), exModels exImported = (h, .ok (a, b, c)) ∧ a ≠ c ∧
    setParam T ["rule_discovery", "mutation", "sigma"] (.atom 3) a h = (h', .ok ()) ∧
    cloneAll T 10 c exDefaults h = (g, .ok k) ∧ look T g ["mutation", "sigma"] (.ref k.rd) = .atom (61 / 50) ∧
    cloneAll T 10 c exDefaults h' = (g', .ok k') ∧ look T g' ["mutation", "sigma"] (.ref k'.rd) = .atom 3 :=
  ⟨exClasses, (exModels exImported).1, (setParam exClasses ["rule_discovery", "mutation", "sigma"] (.atom 3) 2 (exModels exImported).1).1,
    (cloneAll exClasses 10 5 exDefaults (exModels exImported).1).1, (cloneAll exClasses 10 5 exDefaults (setParam exClasses ["rule_discovery", "mutation", "sigma"] (.atom 3) 2 (exModels exImported).1).1).1,
    2, 4, 5, ⟨8, 10, 12, 14⟩, ⟨8, 10, 12, 14⟩, rfl, by decide, rfl, rfl, by decide +kernel, rfl, by decide +kernel⟩

/-- An instance of `C113_independent_partial`: the mutations are given explicitly, so the models have no object in common. -/
def exApart : CHeap ℚ :=
  [{ cls := "HalfnormIncrease", attrs := [("matching_type", .none), ("sigma", .atom 1)] }, { cls := "HalfnormIncrease", attrs := [("matching_type", .none), ("sigma", .atom 2)] },
   { cls := "ES1xLambda", attrs := [("n_iter", .atom 5), ("mutation", .ref 0), ("n_jobs", .atom 1)] }, { cls := "ES1xLambda", attrs := [("n_iter", .atom 5), ("mutation", .ref 1), ("n_jobs", .atom 1)] }]

example : Closed exApart ∧ 2 < exApart.length ∧ 3 < exApart.length ∧ (setParam exClasses ["mutation", "sigma"] (.atom 7) 2 exApart).2 = .ok () ∧
    look exClasses (setParam exClasses ["mutation", "sigma"] (.atom 7) 2 exApart).1 ["mutation", "sigma"] (.ref 2) = .atom 7 ∧
    look exClasses (setParam exClasses ["mutation", "sigma"] (.atom 7) 2 exApart).1 ["mutation", "sigma"] (.ref 3) = .atom 2 := by
  refine ⟨?_, by decide, by decide, by decide +kernel, by decide +kernel, by decide +kernel⟩
  intro i o ho q hq
  match i, ho with
  | 0, ho | 1, ho | 2, ho | 3, ho => simp [exApart] at ho; subst ho; simp at hq; rcases hq with rfl | rfl | rfl <;> simp [Valid, exApart]

example : Apart exApart 2 3 := by
  have h2 : Private (fun i => i = 2 ∨ i = 0) exApart := by
    rintro i (rfl | rfl) <;> refine ⟨by decide, fun o ho q hq j hj => ?_⟩ <;> simp [exApart] at ho <;> subst ho <;> simp at hq
    · rcases hq with rfl | rfl | rfl <;> simp_all
    · rcases hq with rfl | rfl <;> simp at hj
  have h3 : Private (fun i => i = 3 ∨ i = 1) exApart := by
    rintro i (rfl | rfl) <;> refine ⟨by decide, fun o ho q hq j hj => ?_⟩ <;> simp [exApart] at ho <;> subst ho <;> simp at hq
    · rcases hq with rfl | rfl | rfl <;> simp_all
    · rcases hq with rfl | rfl <;> simp at hj
  intro p q j hp hq
  have a := private_resolve h2 p 2 j (.inl rfl) hp
  have b := private_resolve h3 q 3 j (.inl rfl) hq
  omega

/-- An instance of C112: `SupRB(rule_discovery=ES1xLambda(mutation=HalfnormIncrease(sigma=2)))`; the training changes `sigma` of the clone (as adaptive components do) and stores the elitist. -/
def exFit : CHeap ℚ :=
  exImported ++ [{ cls := "HalfnormIncrease", attrs := [("matching_type", .none), ("sigma", .atom 2)] }, { cls := "ES1xLambda", attrs := [("n_iter", .atom 500), ("mutation", .ref 1), ("n_jobs", .atom 1)] },
    { cls := "SupRB", attrs := [("rule_discovery", .ref 2), ("solution_composition", .none), ("matching_type", .none), ("logger", .none), ("n_jobs", .atom 4)] }]

/-- The assignments of the training in the example. -/
def exTraining : List (Write ℚ) := [.at .discovery ["mutation"] "sigma" (.atom 9), .at .discovery [] "helper" (.reached .matching []), .own "elitist_" 1]

example : Closed exFit ∧ Estimator exClasses exFit 3 ∧ ∀ r, Within exFit.length (exDefaults r) := by
  refine ⟨?_, ⟨⟨_, _, rfl, rfl, by decide⟩, ?_⟩, ?_⟩
  · intro i o ho q hq
    match i, ho with
    | 0, ho | 1, ho | 2, ho | 3, ho => simp [exFit, exImported] at ho; subst ho; simp at hq; rcases hq with rfl | rfl | rfl | rfl | rfl <;> simp [Valid, exFit, exImported]
  · intro o ho j
    simp [exFit, exImported] at ho
    subst ho
    simp [CObj.attr, List.lookup]
  · intro r q hq j hj
    cases r <;> simp [exDefaults, exES] at hq
    · rcases hq with rfl | rfl | rfl <;> simp at hj; subst hj; decide
    · rcases hq with rfl | rfl <;> simp at hj
    · rcases hq with rfl | rfl <;> simp at hj
    · rcases hq with rfl | rfl <;> simp at hj

example :
    let r := fitObjects exClasses 10 3 exDefaults 0 [("early_stopping_counter_", 0)] exTraining exFit
    r.2.toOption = some () ∧ look exClasses r.1 ["rule_discovery", "mutation", "sigma"] (.ref 3) = .atom 2 ∧ (r.1[3]?.bind fun o => o.attr "rule_discovery_") = some (.ref 6) ∧
      look exClasses r.1 ["mutation", "sigma"] (.ref 6) = .atom 9 ∧ look exClasses r.1 ["n_jobs"] (.ref 6) = .atom 4 ∧ look exClasses r.1 ["n_jobs"] (.ref 2) = .atom 1 ∧
      look exClasses r.1 ["mutation", "matching_type"] (.ref 6) = .obj "OrderedBound" ∧ look exClasses r.1 ["mutation", "matching_type"] (.ref 2) = .none ∧
      (cloneAll exClasses 10 3 exDefaults exFit).2.toOption.isSome ∧ (cloneAll exClasses 10 3 exDefaults r.1).2.toOption.isSome := by
  decide +kernel

end Comp

end Suprb
