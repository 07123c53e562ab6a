import Verif.Props.NoveltyRules
import Verif.Lemmas.Default

/-!
# Novelty search does not fail
-/

set_option autoImplicit false
set_option linter.unusedSectionVars false

namespace Suprb

variable {K : Type} [Field K] [LinearOrder K] [IsStrictOrderedRing K] {R : Type}

/-- The objects keep their rules and positions, and their distances are only extended. -/
def Longer (st st' : Store R K) : Prop := st'.length = st.length ∧ ∀ (i : Nat) (o : NsObj R K), st[i]? = some o →
  ∃ o', st'[i]? = some o' ∧ o'.rule = o.rule ∧ o'.idx = o.idx ∧ ∀ ds, o.distances = some ds → ∃ more, o'.distances = some (ds ++ more)

theorem Longer.refl (st : Store R K) : Longer st st := ⟨rfl, fun _ o h => ⟨o, h, rfl, rfl, fun ds hd => ⟨[], by simpa using hd⟩⟩⟩

theorem Longer.trans {a b c : Store R K} (h1 : Longer a b) (h2 : Longer b c) : Longer a c := by
  refine ⟨h2.1.trans h1.1, fun i o h => ?_⟩
  obtain ⟨o1, a1, a2, a3, a4⟩ := h1.2 i o h
  obtain ⟨o2, b1, b2, b3, b4⟩ := h2.2 i o1 a1
  refine ⟨o2, b1, b2.trans a2, b3.trans a3, fun ds hd => ?_⟩
  obtain ⟨m1, e1⟩ := a4 ds hd
  obtain ⟨m2, e2⟩ := b4 _ e1
  exact ⟨m1 ++ m2, by rw [e2, List.append_assoc]⟩

/-- The object has a list of distances. -/
def HasDist (st : Store R K) (r : Nat) : Prop := ∃ o ds, st[r]? = some o ∧ o.distances = some ds

theorem HasDist.longer {st st' : Store R K} {r : Nat} (h : HasDist st r) (hl : Longer st st') : HasDist st' r := by
  obtain ⟨o, ds, h1, h2⟩ := h
  obtain ⟨o', a1, _, _, a4⟩ := hl.2 r o h1
  obtain ⟨more, e⟩ := a4 ds h2
  exact ⟨o', _, a1, e⟩

/-- All match sets have one entry per sample. -/
def SameLength (V : NsView R K) (N : Nat) (st : Store R K) : Prop := ∀ (i : Nat) (o : NsObj R K), st[i]? = some o → (V.matchSet o.rule).length = N

theorem SameLength.of_ext {V : NsView R K} {N : Nat} {st st' : Store R K} (h : SameLength V N st) (hl : st'.length = st.length) (hx : Ext st st') : SameLength V N st' := by
  intro i o' ho'
  have hi := (List.getElem?_eq_some_iff.mp ho').1
  obtain ⟨o'', a1, a2⟩ := hx i st[i] (List.getElem?_eq_getElem (hl ▸ hi))
  rw [a1] at ho'
  cases ho'
  rw [a2]
  exact h i _ (List.getElem?_eq_getElem (hl ▸ hi))

theorem Longer.ext {st st' : Store R K} (h : Longer st st') : Ext st st' := fun r o ho => by
  obtain ⟨o', a1, a2, _⟩ := h.2 r o ho
  exact ⟨o', a1, a2⟩

theorem appendDistance_total (st : Store R K) (r : Nat) (x : K) (h : HasDist st r) :
    ∃ st', appendDistance st r x = .ok st' ∧ Longer st st' ∧ ∃ o ds, st'[r]? = some o ∧ o.distances = some ds ∧ ds ≠ [] := by
  obtain ⟨o, ds, h1, h2⟩ := h
  have hr := (List.getElem?_eq_some_iff.mp h1).1
  refine ⟨st.set r { o with distances := some (ds ++ [x]) }, ?_, ⟨by simp, fun i p hp => ?_⟩, { o with distances := some (ds ++ [x]) }, ds ++ [x], ?_, rfl, by simp⟩
  · unfold appendDistance
    rw [h1]
    dsimp only
    rw [h2]
  · rw [List.getElem?_set]
    by_cases hri : r = i
    · subst hri
      rw [h1] at hp
      cases hp
      rw [if_pos rfl, if_pos hr]
      refine ⟨_, rfl, rfl, rfl, fun ds' hd => ?_⟩
      rw [h2] at hd
      cases hd
      exact ⟨[x], rfl⟩
    · rw [if_neg hri]
      exact ⟨p, hp, rfl, rfl, fun ds' hd => ⟨[], by simpa using hd⟩⟩
  · rw [List.getElem?_set, if_pos rfl, if_pos hr]

theorem distancesTo_total (V : NsView R K) (N r : Nat) (archive : List Nat) (st : Store R K) (hlen : SameLength V N st) (hr : HasDist st r)
    (ha : ∀ a ∈ archive, HasDist st a) : ∃ st', distancesTo V r archive st = .ok st' ∧ Longer st st' := by
  induction archive generalizing st with
  | nil => exact ⟨st, rfl, Longer.refl _⟩
  | cons a rest ih =>
    have haa := ha a (List.mem_cons_self ..)
    obtain ⟨o, ds, h1, h2⟩ := hr
    obtain ⟨b, ds', h3, h4⟩ := haa
    have hh : ∃ h : K, hamming (V.matchSet o.rule) (V.matchSet b.rule) = .ok h := by
      unfold hamming
      rw [hlen r o h1, hlen a b h3, if_neg (by simp)]
      exact ⟨_, rfl⟩
    obtain ⟨h, hh⟩ := hh
    obtain ⟨st1, e1, l1, _⟩ := appendDistance_total st a h ⟨b, ds', h3, h4⟩
    obtain ⟨st2, e2, l2, _⟩ := appendDistance_total st1 r h (HasDist.longer ⟨o, ds, h1, h2⟩ l1)
    have l12 := l1.trans l2
    obtain ⟨st', e', l'⟩ := ih st2 (hlen.of_ext l12.1 l12.ext) (HasDist.longer ⟨o, ds, h1, h2⟩ l12) fun a' ha' => (ha a' (List.mem_cons_of_mem _ ha')).longer l12
    refine ⟨st', ?_, l12.trans l'⟩
    unfold distancesTo
    rw [h1, h3]
    dsimp only
    rw [hh]
    dsimp only
    rw [e1]
    dsimp only
    rw [e2]
    exact e'

/-- Objects with an index have distances. -/
def IdxOk (st : Store R K) : Prop := ∀ (i : Nat) (o : NsObj R K), st[i]? = some o → o.idx.isSome → ∃ ds, o.distances = some ds ∧ ds ≠ []

/-- The objects keep their rules and positions, distances and indices do not disappear. -/
def Keeps (st st' : Store R K) : Prop := st'.length = st.length ∧ ∀ (i : Nat) (o : NsObj R K), st[i]? = some o →
  ∃ o', st'[i]? = some o' ∧ o'.rule = o.rule ∧ (o.idx.isSome → o'.idx.isSome) ∧ (o.distances.isSome → o'.distances.isSome)

theorem Keeps.refl (st : Store R K) : Keeps st st := ⟨rfl, fun _ o h => ⟨o, h, rfl, id, id⟩⟩

theorem Keeps.trans {a b c : Store R K} (h1 : Keeps a b) (h2 : Keeps b c) : Keeps a c := by
  refine ⟨h2.1.trans h1.1, fun i o h => ?_⟩
  obtain ⟨o1, a1, a2, a3, a4⟩ := h1.2 i o h
  obtain ⟨o2, b1, b2, b3, b4⟩ := h2.2 i o1 a1
  exact ⟨o2, b1, b2.trans a2, fun h => b3 (a3 h), fun h => b4 (a4 h)⟩

theorem Longer.keeps {st st' : Store R K} (h : Longer st st') : Keeps st st' := by
  refine ⟨h.1, fun i o ho => ?_⟩
  obtain ⟨o', a1, a2, a3, a4⟩ := h.2 i o ho
  refine ⟨o', a1, a2, fun hi => by rw [a3]; exact hi, fun hd => ?_⟩
  obtain ⟨ds, hd⟩ := Option.isSome_iff_exists.mp hd
  obtain ⟨more, e⟩ := a4 ds hd
  rw [e]; rfl

theorem Keeps.ext {st st' : Store R K} (h : Keeps st st') : Ext st st' := fun r o ho => by
  obtain ⟨o', a1, a2, _⟩ := h.2 r o ho
  exact ⟨o', a1, a2⟩

theorem HasDist.keeps {st st' : Store R K} {r : Nat} (h : HasDist st r) (hl : Keeps st st') : HasDist st' r := by
  obtain ⟨o, ds, h1, h2⟩ := h
  obtain ⟨o', a1, _, _, a4⟩ := hl.2 r o h1
  obtain ⟨ds', e⟩ := Option.isSome_iff_exists.mp (a4 (by rw [h2]; rfl))
  exact ⟨o', ds', a1, e⟩

/-- The object has an index (so it was scored before). -/
def HasIdx (st : Store R K) (r : Nat) : Prop := ∃ o, st[r]? = some o ∧ o.idx.isSome

theorem HasIdx.keeps {st st' : Store R K} {r : Nat} (h : HasIdx st r) (hl : Keeps st st') : HasIdx st' r := by
  obtain ⟨o, h1, h2⟩ := h
  obtain ⟨o', a1, _, a3, _⟩ := hl.2 r o h1
  exact ⟨o', a1, a3 h2⟩

theorem HasIdx.dist {st : Store R K} {r : Nat} (h : HasIdx st r) (hi : IdxOk st) : HasDist st r := by
  obtain ⟨o, h1, h2⟩ := h
  obtain ⟨ds, h3, _⟩ := hi r o h1 h2
  exact ⟨o, ds, h1, h3⟩

theorem joinArchive_total (V : NsView R K) (N r : Nat) (archive : List Nat) (st : Store R K) (hlen : SameLength V N st) (hi : IdxOk st) (hr : r < st.length)
    (ha : ∀ a ∈ archive, HasDist st a) : ∃ st', joinArchive V st archive r = .ok st' ∧ Keeps st st' ∧ IdxOk st' ∧ HasIdx st' r := by
  have ho := List.getElem?_eq_getElem hr
  generalize st[r] = o at ho
  by_cases hc : (o.idx.all fun i => decide (archive.length < i)) = true
  · have hk0 : Keeps st (st.set r { o with distances := some [] }) := by
      refine ⟨by simp, fun i p hp => ?_⟩
      rw [List.getElem?_set]
      by_cases hri : r = i
      · subst hri
        rw [ho] at hp
        cases hp
        rw [if_pos rfl, if_pos hr]
        exact ⟨_, rfl, rfl, id, fun _ => rfl⟩
      · rw [if_neg hri]
        exact ⟨p, hp, rfl, id, id⟩
    have hr0 : HasDist (st.set r { o with distances := some [] }) r := ⟨{ o with distances := some [] }, [], by rw [List.getElem?_set, if_pos rfl, if_pos hr], rfl⟩
    obtain ⟨st1, e1, l1⟩ := distancesTo_total V N r archive (st.set r { o with distances := some [] }) (hlen.of_ext hk0.1 hk0.ext) hr0 fun a h => (ha a h).keeps hk0
    obtain ⟨st2, e2, l2, o2, ds2, h2, h2d, hne⟩ := appendDistance_total st1 r 0 (hr0.longer l1)
    have l12 := l1.trans l2
    have hlen2 : st2.length = st.length := by rw [l12.1]; simp
    have hk3 : Keeps st2 (st2.modify r fun o => { o with idx := some archive.length }) := by
      refine ⟨by simp, fun i p hp => ?_⟩
      rw [List.getElem?_modify, hp]
      by_cases hri : r = i
      · exact ⟨{ p with idx := some archive.length }, by simp [hri], rfl, fun _ => rfl, id⟩
      · exact ⟨p, by simp [hri], rfl, id, id⟩
    refine ⟨st2.modify r fun o => { o with idx := some archive.length }, ?_, (hk0.trans l12.keeps).trans hk3, ?_, ?_⟩
    · unfold joinArchive
      rw [ho]
      dsimp only
      rw [if_pos hc, e1]
      dsimp only
      rw [e2]
    · intro i p hp hpi
      rw [List.getElem?_modify] at hp
      by_cases hri : r = i
      · subst hri
        rw [h2] at hp
        simp only [if_true, Option.map_eq_map, Option.map_some, Option.some.injEq] at hp
        rw [← hp]
        exact ⟨ds2, h2d, hne⟩
      · have hp : st2[i]? = some p := by
          cases h : st2[i]? with
          | none => rw [h] at hp; cases hp
          | some v => rw [h] at hp; simpa [hri] using hp
        have hin : i < st.length := hlen2 ▸ (List.getElem?_eq_some_iff.mp hp).1
        have hsi : (st.set r { o with distances := some [] })[i]? = some st[i] := by
          rw [List.getElem?_set, if_neg hri]
          exact List.getElem?_eq_getElem hin
        obtain ⟨p', a1, _, a3, a4⟩ := l12.2 i _ hsi
        rw [hp] at a1
        cases a1
        rw [a3] at hpi
        obtain ⟨ds, hd, hne⟩ := hi i _ (List.getElem?_eq_getElem hin) hpi
        obtain ⟨more, e⟩ := a4 ds hd
        exact ⟨_, e, by simp [hne]⟩
    · refine ⟨{ o2 with idx := some archive.length }, ?_, rfl⟩
      rw [List.getElem?_modify, h2]
      simp
  · refine ⟨st, ?_, Keeps.refl _, hi, o, ho, ?_⟩
    · unfold joinArchive
      rw [ho]
      dsimp only
      rw [if_neg hc]
    · cases h : o.idx with
      | none => rw [h] at hc; exact absurd rfl hc
      | some i => rfl

theorem joinAll_total (V : NsView R K) (N : Nat) (rules archive : List Nat) (st : Store R K) (hlen : SameLength V N st) (hi : IdxOk st) (hr : ∀ r ∈ rules, r < st.length)
    (ha : ∀ a ∈ archive, HasDist st a) : ∃ st', joinAll V rules st archive = .ok (st', archive ++ rules) ∧ Keeps st st' ∧ IdxOk st' ∧ ∀ r ∈ rules, HasIdx st' r := by
  induction rules generalizing st archive with
  | nil => exact ⟨st, by simp [joinAll], Keeps.refl _, hi, fun r h => (List.not_mem_nil h).elim⟩
  | cons r rest ih =>
    obtain ⟨st1, e1, k1, i1, x1⟩ := joinArchive_total V N r archive st hlen hi (hr r (List.mem_cons_self ..)) ha
    obtain ⟨st2, e2, k2, i2, x2⟩ := ih (archive ++ [r]) st1 (hlen.of_ext k1.1 k1.ext) i1 (fun r' h => by rw [k1.1]; exact hr r' (List.mem_cons_of_mem _ h)) (by
      intro a ha'
      rcases List.mem_append.mp ha' with h | h
      · exact (ha a h).keeps k1
      · rw [List.mem_singleton.mp h]; exact x1.dist i1)
    refine ⟨st2, ?_, k1.trans k2, i2, fun r' h => ?_⟩
    · unfold joinAll
      rw [e1]
      dsimp only
      rw [e2, List.append_assoc]
      rfl
    · rcases List.mem_cons.mp h with rfl | h
      · exact x1.keeps k2
      · exact x2 r' h

/-- Parameters the search type accepts: a percentage up to 100, a neighbourhood of at least one rule. -/
def NsType.Usable : NsType → Prop
  | .plain => True
  | .minimalCriteria q => q ≤ 100
  | .localCompetition range => range ≠ 0

theorem scoreAll_total (V : NsView R K) (v : NsVariant K) (t : NsType) (ht : t.Usable) (k : Nat) (archive rules : List Nat) (st : Store R K) (hi : IdxOk st)
    (hr : ∀ r ∈ rules, HasIdx st r) : ∃ st', scoreAll V v t k archive rules st = .ok st' ∧ Longer st st' := by
  induction rules generalizing st with
  | nil => exact ⟨st, rfl, Longer.refl _⟩
  | cons r rest ih =>
    obtain ⟨o, h1, h2⟩ := hr r (List.mem_cons_self ..)
    obtain ⟨ds, h3, h4⟩ := hi r o h1 h2
    have hlc : ∃ x : K, localCompetition V st t o.rule archive = .ok x := by
      unfold localCompetition
      cases t with
      | plain => exact ⟨_, rfl⟩
      | minimalCriteria q => exact ⟨_, rfl⟩
      | localCompetition range => dsimp only; rw [if_neg ht]; exact ⟨_, rfl⟩
    obtain ⟨lc, hlc⟩ := hlc
    have hnb : ∃ s, noveltyBase V v k o = .ok s := by
      have : ∃ s, nearestMean k ds = .ok s := by
        unfold nearestMean
        rw [if_neg h4]
        dsimp only
        split_ifs
        · exact ⟨_, rfl⟩
        · exact ⟨_, rfl⟩
      obtain ⟨s, hs⟩ := this
      unfold noveltyBase
      rw [h3]
      dsimp only
      rw [hs]
      cases v <;> exact ⟨_, rfl⟩
    obtain ⟨s, hs⟩ := hnb
    have hrl := (List.getElem?_eq_some_iff.mp h1).1
    have l1 : Longer st (st.set r { o with novelty := some (s.map fun x => lc + x) }) := by
      refine ⟨by simp, fun i p hp => ?_⟩
      rw [List.getElem?_set]
      by_cases hri : r = i
      · subst hri
        rw [h1] at hp
        cases hp
        rw [if_pos rfl, if_pos hrl]
        exact ⟨_, rfl, rfl, rfl, fun ds hd => ⟨[], by simpa using hd⟩⟩
      · rw [if_neg hri]
        exact ⟨p, hp, rfl, rfl, fun ds hd => ⟨[], by simpa using hd⟩⟩
    have hi1 : IdxOk (st.set r { o with novelty := some (s.map fun x => lc + x) }) := by
      intro i p hp hpi
      rw [List.getElem?_set] at hp
      by_cases hri : r = i
      · subst hri
        rw [if_pos rfl, if_pos hrl] at hp
        cases hp
        exact ⟨ds, h3, h4⟩
      · rw [if_neg hri] at hp
        exact hi i p hp hpi
    obtain ⟨st', e', l'⟩ := ih _ hi1 fun r' h => (hr r' (List.mem_cons_of_mem _ h)).keeps l1.keeps
    refine ⟨st', ?_, l1.trans l'⟩
    unfold scoreAll
    rw [h1]
    dsimp only
    rw [hlc]
    dsimp only
    rw [hs]
    exact e'

theorem Longer.idxOk {st st' : Store R K} (h : Longer st st') (hi : IdxOk st) : IdxOk st' := by
  intro i o' ho' hi'
  have hin : i < st.length := h.1 ▸ (List.getElem?_eq_some_iff.mp ho').1
  obtain ⟨o'', a1, _, a3, a4⟩ := h.2 i st[i] (List.getElem?_eq_getElem hin)
  rw [ho'] at a1
  cases a1
  rw [a3] at hi'
  obtain ⟨ds, hd, hne⟩ := hi i _ (List.getElem?_eq_getElem hin) hi'
  obtain ⟨more, e⟩ := a4 ds hd
  exact ⟨_, e, by simp [hne]⟩

theorem filterRules_total (V : NsView R K) (st : Store R K) (t : NsType) (ht : t.Usable) (refs : List Nat) (hne : refs ≠ []) (hr : ∀ r ∈ refs, r < st.length) :
    ∃ out, filterRules V st t refs = .ok out ∧ out ≠ [] := by
  cases t with
  | plain => exact ⟨refs, rfl, hne⟩
  | localCompetition _ => exact ⟨refs, rfl, hne⟩
  | minimalCriteria q =>
    have hne' : (refs.filterMap fun r => st[r]?.map NsObj.rule) ≠ [] := by
      obtain ⟨r, hrm⟩ := List.exists_mem_of_ne_nil _ hne
      refine List.ne_nil_of_mem (List.mem_filterMap.mpr ⟨r, hrm, ?_⟩) (a := st[r]'(hr r hrm) |>.rule)
      rw [List.getElem?_eq_getElem (hr r hrm)]; rfl
    obtain ⟨keep, h1, h2, _⟩ := C77_partial V q ht (refs.filterMap fun r => st[r]?.map NsObj.rule) hne'
    refine ⟨refs.filter fun r => (st[r]?.map fun o => keep o.rule).getD false, by unfold filterRules; dsimp only; rw [h1], ?_⟩
    obtain ⟨x, hx⟩ := List.exists_mem_of_ne_nil _ h2
    obtain ⟨hx1, hx2⟩ := List.mem_filter.mp hx
    obtain ⟨r, hrm, hre⟩ := List.mem_filterMap.mp hx1
    refine List.ne_nil_of_mem (List.mem_filter.mpr ⟨hrm, ?_⟩) (a := r)
    rw [List.getElem?_eq_getElem (hr r hrm)] at hre ⊢
    simp only [Option.map_some, Option.some.injEq] at hre
    simp only [Option.map_some, Option.getD_some]
    rw [hre]; exact hx2

theorem noveltyScores_total (V : NsView R K) (N : Nat) (v : NsVariant K) (t : NsType) (ht : t.Usable) (k : Nat) (archive rules : List Nat) (st : Store R K)
    (hlen : SameLength V N st) (hi : IdxOk st) (hne : rules ≠ []) (hr : ∀ r ∈ rules, r < st.length) (ha : ∀ a ∈ archive, HasDist st a) :
    ∃ st' ns, noveltyScores V v t k archive rules st = .ok (st', ns) ∧ Keeps st st' ∧ IdxOk st' ∧ ns ≠ [] ∧ ∀ r ∈ ns, r ∈ rules ∧ HasDist st' r := by
  have main : ∀ rules' : List Nat, rules' ≠ [] → (∀ r ∈ rules', r ∈ rules) → (rules' = match v with | .progressive => progressiveFilter (fitnessAt V st) rules | _ => rules) →
      ∃ st' ns, noveltyScores V v t k archive rules st = .ok (st', ns) ∧ Keeps st st' ∧ IdxOk st' ∧ ns ≠ [] ∧ ∀ r ∈ ns, HasDist st' r := by
    intro rules' hne' hsub heq
    obtain ⟨filtered, f1, f2⟩ := filterRules_total V st t ht rules' hne' fun r h => hr r (hsub r h)
    have hfs := filterRules_sub V st t _ filtered f1
    obtain ⟨st1, e1, k1, i1, x1⟩ := joinAll_total V N filtered archive st hlen hi (fun r h => hr r (hsub r (hfs r h))) ha
    obtain ⟨st2, e2, l2⟩ := scoreAll_total V v t ht k (archive ++ filtered) filtered st1 i1 x1
    have i2 := l2.idxOk i1
    have hd : ∀ r ∈ filtered, HasDist st2 r := fun r h => ((x1 r h).keeps l2.keeps).dist i2
    cases v with
    | pareto =>
      obtain ⟨front, g1, g2, _⟩ := C70_pareto_front (noveltyOf st2) (fitnessAt V st2) filtered f2
      refine ⟨st2, front, ?_, k1.trans l2.keeps, i2, g2, fun r h => hd r (paretoFront_mem _ _ _ _ g1 r h)⟩
      subst heq
      simp only [noveltyScores, f1, e1, e2, g1]
    | basic => subst heq; exact ⟨st2, filtered, by simp only [noveltyScores, f1, e1, e2], k1.trans l2.keeps, i2, f2, hd⟩
    | progressive => subst heq; exact ⟨st2, filtered, by simp only [noveltyScores, f1, e1, e2], k1.trans l2.keeps, i2, f2, hd⟩
    | biased _ _ => subst heq; exact ⟨st2, filtered, by simp only [noveltyScores, f1, e1, e2], k1.trans l2.keeps, i2, f2, hd⟩
  have hex : ∃ st' ns, noveltyScores V v t k archive rules st = .ok (st', ns) ∧ Keeps st st' ∧ IdxOk st' ∧ ns ≠ [] ∧ ∀ r ∈ ns, HasDist st' r := by
    cases v with
    | progressive =>
      have hp := C70_progressive (fitnessAt V st) rules
      refine main _ ?_ (fun r h => hp.2.1.subset h) rfl
      intro h0
      have := hp.1
      rw [h0, List.length_nil] at this
      exact hne (List.length_eq_zero_iff.mp (by omega))
    | basic => exact main rules hne (fun _ h => h) rfl
    | pareto => exact main rules hne (fun _ h => h) rfl
    | biased _ _ => exact main rules hne (fun _ h => h) rfl
  obtain ⟨st', ns, h1, h2, h3, h4, h5⟩ := hex
  exact ⟨st', ns, h1, h2, h3, h4, fun r h => ⟨(noveltyScores_ext V _ _ _ _ _ _ _ _ h1).2 r h, h5 r h⟩⟩

/-- The permutations the random archive draws are permutations. -/
def NsArchive.Possible : NsArchive → Prop
  | .random perm => ∀ n, (perm n).Perm (List.range n)
  | _ => True

theorem archiveAdds_ne (V : NsView R K) (st : Store R K) (a : NsArchive) (ha : a.Possible) (rules : List Nat) (n : Nat) (h : rules ≠ []) : (archiveAdds V st a rules n).2 ≠ [] := by
  cases a with
  | novel => exact h
  | none_ => exact h
  | random perm =>
    have hl : 0 < rules.length := List.length_pos_iff.mpr h
    refine List.ne_nil_of_mem (List.mem_filterMap.mpr ⟨0, (ha rules.length).symm.subset (List.mem_range.mpr hl), ?_⟩) (a := rules[0])
    rw [List.getElem?_eq_getElem hl]

/-- What holds of the state of the loop: match sets of the same length, distances where they are needed, references to existing objects. -/
structure NsInv (V : NsView R K) (N : Nat) (Good : R → Prop) (s : NsState R K) : Prop where
  len : SameLength V N s.store
  idx : IdxOk s.store
  arch : ∀ a ∈ s.archive, HasDist s.store a
  pop : ∀ r ∈ s.population, ∃ o, s.store[r]? = some o ∧ Good o.rule
  ne : s.population ≠ []
  best : ∀ r ∈ s.best, HasDist s.store r ∧ ∃ o, s.store[r]? = some o ∧ Good o.rule

theorem ruleSelection_total (V : NsView R K) (N : Nat) (cfg : NsCfg K) (ht : cfg.type.Usable) (a : NsArchive) (ha : a.Possible) (s : NsState R K) (rules : List Nat) (n roh : Nat)
    (hlen : SameLength V N s.store) (hi : IdxOk s.store) (hne : rules ≠ []) (hr : ∀ r ∈ rules, r < s.store.length) (harch : ∀ a ∈ s.archive, HasDist s.store a) :
    ∃ s' best, ruleSelection V cfg a s rules n roh = .ok (s', best) ∧ Keeps s.store s'.store ∧ IdxOk s'.store ∧ (∀ a ∈ s'.archive, HasDist s'.store a) ∧
      (n ≠ 0 → best ≠ []) ∧ ∀ r ∈ best, r ∈ rules ∧ HasDist s'.store r := by
  obtain ⟨st, ns, h1, h2, h3, h4, h5⟩ := noveltyScores_total V N cfg.variant cfg.type ht cfg.k s.archive rules s.store hlen hi hne hr harch
  have hadd : ∀ r ∈ (if cfg.usePopulation then (ns, ns) else archiveAdds V st a ns roh).1, r ∈ ns := by
    intro r h
    split at h
    · exact h
    · exact (archiveAdds_sub V st a ns roh).1 r h
  have hlist : ∀ r ∈ (if cfg.usePopulation then (ns, ns) else archiveAdds V st a ns roh).2, r ∈ ns := by
    intro r h
    split at h
    · exact h
    · exact (archiveAdds_sub V st a ns roh).2.1 r h
  have hlne : (if cfg.usePopulation then (ns, ns) else archiveAdds V st a ns roh).2 ≠ [] := by
    split
    · exact h4
    · exact archiveAdds_ne V st a ha ns roh h4
  refine ⟨_, _, by unfold ruleSelection; rw [h1], h2, h3, fun r h => ?_, fun hn h0 => ?_, fun r h => ?_⟩
  · rcases List.mem_append.mp h with h | h
    · exact (harch r h).keeps h2
    · exact (h5 r (hadd r h)).2
  · rcases List.take_eq_nil_iff.mp h0 with h | h
    · exact hn h
    · exact hlne (List.perm_nil.mp (h ▸ (sortedDesc_perm _ _).symm))
  · exact h5 r (hlist r ((sortedDesc_perm _ _).subset (List.mem_of_mem_take h)))

/-- Breeding good rules succeeds and gives good rules. -/
def BreedsGood {Z : Type} (breed : R → R → Z → Except PyErr (List R)) (Good : R → Prop) (Zok : Z → Prop) : Prop :=
  ∀ a b z, Good a → Good b → Zok z → ∃ cs, breed a b z = .ok cs ∧ ∀ c ∈ cs, Good c

theorem nsChildren_total {Z : Type} (breed : R → R → Z → Except PyErr (List R)) (Good : R → Prop) (Zok : Z → Prop) (hb : BreedsGood breed Good Zok) (z : Nat → Z) (hz : ∀ i, Zok (z i))
    (i : Nat) (ps : List (R × R)) (hp : ∀ p ∈ ps, Good p.1 ∧ Good p.2) : ∃ cs, nsChildren breed z i ps = .ok cs ∧ ∀ c ∈ cs, Good c := by
  induction ps generalizing i with
  | nil => exact ⟨[], rfl, by simp⟩
  | cons p rest ih =>
    obtain ⟨a, b⟩ := p
    obtain ⟨hga, hgb⟩ := hp (a, b) (List.mem_cons_self ..)
    obtain ⟨cs, e1, g1⟩ := hb a b (z i) hga hgb (hz i)
    obtain ⟨ds, e2, g2⟩ := ih (i + 1) fun p h => hp p (List.mem_cons_of_mem _ h)
    refine ⟨cs ++ ds, ?_, fun c hc => (List.mem_append.mp hc).elim (g1 c) (g2 c)⟩
    unfold nsChildren
    rw [e1]
    dsimp only
    rw [e2]

theorem pairUp_mem {α : Type} (l : List α) : ∀ p ∈ pairUp l, p.1 ∈ l ∧ p.2 ∈ l := by
  induction l using pairUp.induct with
  | case1 a b rest ih =>
    intro p hp
    rw [pairUp] at hp
    rcases List.mem_cons.mp hp with rfl | hp
    · simp
    · exact ⟨by simp [(ih p hp).1], by simp [(ih p hp).2]⟩
  | case2 l h =>
    intro p hp
    match l, h with
    | [], _ => simp [pairUp] at hp
    | [a], _ => simp [pairUp] at hp
    | a :: b :: rest, h => exact absurd rfl (h a b rest)

/-- Possible draws of an iteration: the selection returns positions in every population that is not empty, permutations are permutations. -/
structure NsDraw.Possible {Z : Type} (Zok : Z → Prop) (d : NsDraw R Z) : Prop where
  parents : ∀ pop : List R, pop ≠ [] → ∃ idx, d.parents pop = .ok idx ∧ ∀ i ∈ idx, i < pop.length
  breed : ∀ i, Zok (d.breed i)
  children : d.archiveChildren.Possible
  archive : d.archiveParents.Possible

/-- The same, with a selection that is only known to work on populations of good rules. -/
structure NsDraw.PossibleFor {Z : Type} (Good : R → Prop) (Zok : Z → Prop) (d : NsDraw R Z) : Prop where
  parents : ∀ pop : List R, pop ≠ [] → (∀ r ∈ pop, Good r) → ∃ idx, d.parents pop = .ok idx ∧ ∀ i ∈ idx, i < pop.length
  breed : ∀ i, Zok (d.breed i)
  children : d.archiveChildren.Possible
  archive : d.archiveParents.Possible

theorem NsDraw.Possible.for {Z : Type} {Zok : Z → Prop} {d : NsDraw R Z} (h : d.Possible Zok) (Good : R → Prop) : d.PossibleFor Good Zok :=
  ⟨fun pop hne _ => h.parents pop hne, h.breed, h.children, h.archive⟩

theorem pick_total (l idx : List Nat) (h : ∀ i ∈ idx, i < l.length) : ∃ out, pick l idx = .ok out ∧ ∀ r ∈ out, r ∈ l := by
  have hone : ∀ i ∈ idx, ∃ x, (match l[i]? with | none => Except.error PyErr.indexError | some x => Except.ok x) = Except.ok x ∧ x ∈ l := fun i hi => by
    rw [List.getElem?_eq_getElem (h i hi)]
    exact ⟨_, rfl, List.getElem_mem _⟩
  obtain ⟨out, ho⟩ := mapM_total (fun i => match l[i]? with | none => Except.error PyErr.indexError | some x => Except.ok x) idx fun i hi => by
    obtain ⟨x, h1, _⟩ := hone i hi
    exact ⟨x, h1⟩
  refine ⟨out, ho, fun r hr => ?_⟩
  obtain ⟨i, hi, he⟩ := mem_of_mapM_ok _ _ _ ho r hr
  obtain ⟨x, h1, h2⟩ := hone i hi
  rw [h1] at he
  cases he
  exact h2

theorem nsStep_total {Z : Type} (V : NsView R K) (N : Nat) (Good : R → Prop) (hgood : ∀ r, Good r → (V.matchSet r).length = N) (cfg : NsCfg K) (ht : cfg.type.Usable) (hmu : cfg.mu ≠ 0)
    (breed : R → R → Z → Except PyErr (List R)) (Zok : Z → Prop) (hb : BreedsGood breed Good Zok) (valid : R → Bool) (s : NsState R K) (d : NsDraw R Z) (hd : d.PossibleFor Good Zok)
    (h : NsInv V N Good s) : ∃ s', nsStep V cfg breed valid s d = .ok s' ∧ NsInv V N Good s' := by
  have hplen : (s.population.filterMap fun r => s.store[r]?.map NsObj.rule).length = s.population.length := by
    have : ∀ l : List Nat, (∀ r ∈ l, ∃ o, s.store[r]? = some o ∧ Good o.rule) → (l.filterMap fun r => s.store[r]?.map NsObj.rule).length = l.length := by
      intro l hl
      induction l with
      | nil => rfl
      | cons r rest ih =>
        obtain ⟨o, ho, _⟩ := hl r (List.mem_cons_self ..)
        rw [List.filterMap_cons, ho]
        simp [ih fun r h => hl r (List.mem_cons_of_mem _ h)]
    exact this _ h.pop
  have hpne : (s.population.filterMap fun r => s.store[r]?.map NsObj.rule) ≠ [] := fun h0 => by
    rw [h0] at hplen
    exact h.ne (List.length_eq_zero_iff.mp hplen.symm)
  obtain ⟨idx, hidx, hlt⟩ := hd.parents _ hpne fun x hx => by
    obtain ⟨r, hr, hx⟩ := List.mem_filterMap.mp hx
    obtain ⟨o, ho, hg⟩ := h.pop r hr
    rw [ho] at hx
    cases hx
    exact hg
  rw [hplen] at hlt
  obtain ⟨parents, hpick, hpm⟩ := pick_total s.population idx hlt
  have hsel : selectParents s d = .ok parents := by unfold selectParents; rw [hidx]; exact hpick
  unfold nsStep
  rw [hsel]
  dsimp only
  by_cases hp0 : parents = []
  · rw [if_pos hp0]; exact ⟨s, rfl, h⟩
  rw [if_neg hp0]
  have hpg : ∀ x ∈ (parents.filterMap fun r => s.store[r]?.map NsObj.rule), Good x := by
    intro x hx
    obtain ⟨r, hr, hx⟩ := List.mem_filterMap.mp hx
    obtain ⟨o, ho, hg⟩ := h.pop r (hpm r hr)
    rw [ho] at hx
    cases hx
    exact hg
  obtain ⟨children, hch, hcg⟩ := nsChildren_total breed Good Zok hb d.breed hd.breed 0 (pairUp (parents.filterMap fun r => s.store[r]?.map NsObj.rule)) fun p hp =>
    ⟨hpg _ (pairUp_mem _ p hp).1, hpg _ (pairUp_mem _ p hp).2⟩
  rw [hch]
  dsimp only
  by_cases hf0 : children.filter valid = []
  · rw [if_pos hf0]; exact ⟨s, rfl, h⟩
  rw [if_neg hf0]
  generalize hfr : children.filter valid = fresh at hf0
  have hfg : ∀ c ∈ fresh, Good c := fun c hc => hcg c (List.mem_filter.mp (hfr ▸ hc)).1
  have hold : ∀ (r : Nat) (o : NsObj R K), s.store[r]? = some o → (s.store ++ fresh.map fun r => ({ rule := r } : NsObj R K))[r]? = some o := fun r o ho => by
    rw [List.getElem?_append_left (List.getElem?_eq_some_iff.mp ho).1]; exact ho
  have hnew : ∀ (i : Nat) (o : NsObj R K), (s.store ++ fresh.map fun r => ({ rule := r } : NsObj R K))[i]? = some o → s.store[i]? = some o ∨ ∃ c ∈ fresh, o = { rule := c } := by
    intro i o ho
    by_cases hi : i < s.store.length
    · rw [List.getElem?_append_left hi] at ho; exact Or.inl ho
    · rw [List.getElem?_append_right (Nat.le_of_not_lt hi), List.getElem?_map] at ho
      cases hc : fresh[i - s.store.length]? with
      | none => rw [hc] at ho; cases ho
      | some c =>
        rw [hc] at ho
        cases ho
        exact Or.inr ⟨c, List.mem_of_getElem? hc, rfl⟩
  have hlen1 : SameLength V N (s.store ++ fresh.map fun r => ({ rule := r } : NsObj R K)) := fun i o ho => by
    rcases hnew i o ho with h1 | ⟨c, hc, rfl⟩
    · exact h.len i o h1
    · exact hgood c (hfg c hc)
  have hidx1 : IdxOk (s.store ++ fresh.map fun r => ({ rule := r } : NsObj R K)) := fun i o ho hio => by
    rcases hnew i o ho with h1 | ⟨c, hc, rfl⟩
    · exact h.idx i o h1 hio
    · cases hio
  have harch1 : ∀ a ∈ s.archive, HasDist (s.store ++ fresh.map fun r => ({ rule := r } : NsObj R K)) a := fun a ha => by
    obtain ⟨o, ds, h1, h2⟩ := h.arch a ha
    exact ⟨o, ds, hold a o h1, h2⟩
  have hfl : 0 < fresh.length := List.length_pos_iff.mpr hf0
  obtain ⟨s2, best, e2, k2, i2, a2, n2, b2⟩ := ruleSelection_total V N cfg ht d.archiveChildren hd.children
    { s with store := s.store ++ fresh.map fun r => { rule := r } } ((List.range fresh.length).map (s.store.length + ·)) cfg.mu cfg.roh hlen1 hidx1
    (by intro h0; rw [List.map_eq_nil_iff, List.range_eq_nil] at h0; omega)
    (by
      intro r hr
      obtain ⟨i, hi, rfl⟩ := List.mem_map.mp hr
      have := List.mem_range.mp hi
      simp only [List.length_append, List.length_map]
      omega) harch1
  have hl2 : s2.store.length = s.store.length + fresh.length := by rw [k2.1]; simp
  have hpar : ∀ r ∈ parents, ∃ o, s2.store[r]? = some o ∧ Good o.rule := fun r hr => by
    obtain ⟨o, ho, hg⟩ := h.pop r (hpm r hr)
    obtain ⟨o2, h1, h2, _⟩ := k2.2 r o (hold r o ho)
    exact ⟨o2, h1, by rw [h2]; exact hg⟩
  obtain ⟨s3, bp, e3, k3, i3, a3, _, b3⟩ := ruleSelection_total V N cfg ht d.archiveParents hd.archive s2 parents cfg.nElitists 0 (hlen1.of_ext k2.1 k2.ext) i2 hp0
    (fun r hr => by obtain ⟨o, ho, _⟩ := hpar r hr; exact (List.getElem?_eq_some_iff.mp ho).1) a2
  have hbest : ∀ r ∈ best, HasDist s3.store r ∧ ∃ o, s3.store[r]? = some o ∧ Good o.rule := by
    intro r hr
    refine ⟨(b2 r hr).2.keeps k3, ?_⟩
    obtain ⟨i, hi, rfl⟩ := List.mem_map.mp (b2 r hr).1
    have hi := List.mem_range.mp hi
    obtain ⟨o2, h1, h2, _⟩ := k2.2 (s.store.length + i) { rule := fresh[i] } (by
      rw [List.getElem?_append_right (Nat.le_add_right _ _), Nat.add_sub_cancel_left, List.getElem?_map, List.getElem?_eq_getElem hi]; rfl)
    obtain ⟨o3, h3, h4, _⟩ := k3.2 _ o2 h1
    exact ⟨o3, h3, by rw [h4, h2]; exact hfg _ (List.getElem_mem hi)⟩
  refine ⟨{ s3 with population := best ++ bp, best := best }, ?_, ?_⟩
  · have e2' : ruleSelection V cfg d.archiveChildren { s with store := s.store ++ List.map (fun r => { rule := r }) fresh } (List.map (fun x => s.store.length + x) (List.range fresh.length))
      cfg.mu cfg.roh = .ok (s2, best) := e2
    rw [e2']
    dsimp only
    rw [e3]
  · refine ⟨(hlen1.of_ext k2.1 k2.ext).of_ext k3.1 k3.ext, i3, a3, fun r hr => ?_, fun h0 => n2 hmu (List.append_eq_nil_iff.mp h0).1, hbest⟩
    rcases List.mem_append.mp hr with hr | hr
    · exact (hbest r hr).2
    · obtain ⟨o2, ho2, hg⟩ := hpar r (b3 r hr).1
      obtain ⟨o3, h3, h4, _⟩ := k3.2 r o2 ho2
      exact ⟨o3, h3, by rw [h4]; exact hg⟩

/-- The whole loop: it succeeds, and the best children are good and keep their distances. -/
theorem nsLoop_total {Z : Type} (V : NsView R K) (N : Nat) (Good : R → Prop) (hgood : ∀ r, Good r → (V.matchSet r).length = N) (cfg : NsCfg K) (ht : cfg.type.Usable) (hmu : cfg.mu ≠ 0)
    (breed : R → R → Z → Except PyErr (List R)) (Zok : Z → Prop) (hb : BreedsGood breed Good Zok) (valid : R → Bool) (draws : List (NsDraw R Z)) (hd : ∀ d ∈ draws, d.PossibleFor Good Zok)
    (s : NsState R K) (h : NsInv V N Good s) : ∃ s', draws.foldlM (nsStep V cfg breed valid) s = .ok s' ∧ NsInv V N Good s' := by
  induction draws generalizing s with
  | nil => exact ⟨s, rfl, h⟩
  | cons d rest ih =>
    obtain ⟨s1, e1, h1⟩ := nsStep_total V N Good hgood cfg ht hmu breed Zok hb valid s d (hd d (List.mem_cons_self ..)) h
    obtain ⟨s2, e2, h2⟩ := ih (fun d h => hd d (List.mem_cons_of_mem _ h)) s1 h1
    refine ⟨s2, ?_, h2⟩
    rw [List.foldlM_cons, e1]
    exact e2

/-- Attributes of the rules of the pool: one match set entry per sample, a list of distances, not empty if there is an index. -/
def PoolAttributes (V : NsView R K) (N : Nat) (pool : Store R K) : Prop :=
  ∀ o ∈ pool, (V.matchSet o.rule).length = N ∧ ∃ ds, o.distances = some ds ∧ (o.idx.isSome → ds ≠ [])

theorem nsStart_inv (V : NsView R K) (N : Nat) (Good : R → Prop) (hgood : ∀ r, Good r → (V.matchSet r).length = N) (pool : Store R K) (hp : PoolAttributes V N pool) (initial : List R)
    (hi : ∀ r ∈ initial, Good r) (hne : initial ≠ []) : NsInv V N Good (nsStart pool initial) := by
  have hnew : ∀ (i : Nat) (o : NsObj R K), (nsStart pool initial).store[i]? = some o → o ∈ pool ∨ ∃ c ∈ initial, o = { rule := c } := by
    intro i o ho
    rcases List.mem_append.mp (List.mem_of_getElem? ho) with h | h
    · exact Or.inl h
    · obtain ⟨c, hc, rfl⟩ := List.mem_map.mp h
      exact Or.inr ⟨c, hc, rfl⟩
  refine ⟨fun i o ho => ?_, fun i o ho hio => ?_, fun a ha => ?_, fun r hr => ?_, fun h0 => ?_, fun r hr => (List.not_mem_nil hr).elim⟩
  · rcases hnew i o ho with h | ⟨c, hc, rfl⟩
    · exact (hp o h).1
    · exact hgood c (hi c hc)
  · rcases hnew i o ho with h | ⟨c, hc, rfl⟩
    · obtain ⟨_, ds, h1, h2⟩ := hp o h
      exact ⟨ds, h1, h2 hio⟩
    · cases hio
  · have ha : a < pool.length := List.mem_range.mp ha
    obtain ⟨_, ds, h1, _⟩ := hp _ (List.getElem_mem ha)
    exact ⟨pool[a], ds, by rw [nsStart, List.getElem?_append_left ha]; exact List.getElem?_eq_getElem ha, h1⟩
  · obtain ⟨i, hir, rfl⟩ := List.mem_map.mp hr
    have hir := List.mem_range.mp hir
    refine ⟨{ rule := initial[i] }, ?_, hi _ (List.getElem_mem hir)⟩
    rw [nsStart, List.getElem?_append_right (Nat.le_add_right _ _), Nat.add_sub_cancel_left, List.getElem?_map, List.getElem?_eq_getElem hir]
    rfl
  · rw [nsStart] at h0
    simp only [List.map_eq_nil_iff, List.range_eq_nil] at h0
    exact hne (List.length_eq_zero_iff.mp h0)

end Suprb
