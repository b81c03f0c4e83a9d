import Verif.Proofs.Graph
import Verif.Proofs.Symbolic
import Verif.Proofs.Results
import Verif.Proofs.Backends

/-! Calls in graph mode. -/

namespace Einops

universe u

/-! ### sizes of equal value -/

/-- the same names and values -/
def SameKw (kw kw' : List (Str × Size)) : Prop :=
  kw.map (fun p => (p.1, p.2.val)) = kw'.map (fun p => (p.1, p.2.val))

theorem SameKw.names {kw kw' : List (Str × Size)} (h : SameKw kw kw') : kw.map Prod.fst = kw'.map Prod.fst := by
  have := congrArg (List.map Prod.fst) h
  simpa [List.map_map, Function.comp_def] using this

theorem knownSize_val {kw kw' : List (Str × Size)} (h : SameKw kw kw') (a : Axis) :
    (knownSize kw a).map Size.val = (knownSize kw' a).map Size.val := by
  cases a with
  | anon => rfl
  | str n =>
    simp only [knownSize]
    unfold SameKw at h
    induction kw generalizing kw' with
    | nil =>
      cases kw' with
      | nil => rfl
      | cons p kw' => simp at h
    | cons p kw ih =>
      cases kw' with
      | nil => simp at h
      | cons q kw' =>
        obtain ⟨m, s⟩ := p
        obtain ⟨m', s'⟩ := q
        simp only [List.map_cons, List.cons.injEq, Prod.mk.injEq] at h
        obtain ⟨⟨rfl, hs⟩, h⟩ := h
        simp only [dictGet]
        split
        · simp [hs]
        · exact ih h

theorem knownProd_same {kw kw' : List (Str × Size)} (h : SameKw kw kw') (g : List Axis) :
    (knownProd kw g).val = (knownProd kw' g).val := by
  unfold knownProd
  rw [sizeProd_eq, sizeProd_eq]
  simp only [List.map_filterMap]
  congr 2
  funext a
  exact knownSize_val h a

theorem find_same (q : List Axis → Bool) (L : List (List Axis)) {S S' : List Size} (h : S.map Size.val = S'.map Size.val) :
    ((L.zip S).find? (fun p => q p.1)).map (fun p => (p.1, p.2.val)) =
      ((L.zip S').find? (fun p => q p.1)).map (fun p => (p.1, p.2.val)) := by
  induction L generalizing S S' with
  | nil => simp
  | cons g L ih =>
    cases S with
    | nil =>
      cases S' with
      | nil => rfl
      | cons s S' => simp at h
    | cons s S =>
      cases S' with
      | nil => simp at h
      | cons s' S' =>
        simp only [List.map_cons, List.cons.injEq] at h
        simp only [List.zip_cons_cons, List.find?_cons]
        cases q g
        · exact ih h.2
        · simp [h.1]

theorem axisSize_same {kw kw' : List (Str × Size)} (h : SameKw kw kw') (L : List (List Axis)) {S S' : List Size}
    (hS : S.map Size.val = S'.map Size.val) (a : Axis) : (axisSize kw L S a).val = (axisSize kw' L S' a).val := by
  unfold axisSize
  have h1 := knownSize_val h a
  cases hk : knownSize kw a with
  | some s =>
    cases hk' : knownSize kw' a with
    | some s' => rw [hk, hk'] at h1; simpa using h1
    | none => rw [hk, hk'] at h1; simp at h1
  | none =>
    cases hk' : knownSize kw' a with
    | some s' => rw [hk, hk'] at h1; simp at h1
    | none =>
      simp only
      have h2 := find_same (fun g => decide (a ∈ g)) L hS
      cases hf : (L.zip S).find? (fun p => decide (a ∈ p.1)) with
      | none =>
        cases hf' : (L.zip S').find? (fun p => decide (a ∈ p.1)) with
        | none => rfl
        | some p => rw [hf, hf'] at h2; simp at h2
      | some p =>
        cases hf' : (L.zip S').find? (fun p => decide (a ∈ p.1)) with
        | none => rw [hf, hf'] at h2; simp at h2
        | some p' =>
          rw [hf, hf'] at h2
          simp only [Option.map_some, Option.some.injEq, Prod.mk.injEq] at h2
          simp only [Size.fdiv, h2.1, h2.2, knownProd_same h]

/-! ### a reshape detects a wrong division -/

theorem prod_pos_list {l : List Int} (h : ∀ d ∈ l, 0 < d) : 0 < l.prod := by
  induction l with
  | nil => simp
  | cons d l ih =>
    rw [List.prod_cons]
    exact mul_pos (h d (by simp)) (ih fun e he => h e (by simp [he]))

theorem prods_le {l : List (Int × Int)} (h : ∀ p ∈ l, 0 ≤ p.1 ∧ p.1 ≤ p.2) :
    0 ≤ (l.map Prod.fst).prod ∧ (l.map Prod.fst).prod ≤ (l.map Prod.snd).prod := by
  induction l with
  | nil => simp
  | cons p l ih =>
    obtain ⟨h1, h2⟩ := h p (by simp)
    obtain ⟨h3, h4⟩ := ih (fun q hq => h q (by simp [hq]))
    simp only [List.map_cons, List.prod_cons]
    exact ⟨mul_nonneg h1 h3, mul_le_mul h2 h4 h3 (h1.trans h2)⟩

theorem prods_eq {l : List (Int × Int)} (h : ∀ p ∈ l, 0 ≤ p.1 ∧ p.1 ≤ p.2 ∧ 0 < p.2)
    (he : (l.map Prod.fst).prod = (l.map Prod.snd).prod) : ∀ p ∈ l, p.1 = p.2 := by
  induction l with
  | nil => simp
  | cons p l ih =>
    obtain ⟨h1, h2, h3⟩ := h p (by simp)
    obtain ⟨h4, h5⟩ := prods_le (l := l) (fun q hq => ⟨(h q (by simp [hq])).1, (h q (by simp [hq])).2.1⟩)
    have h6 : 0 < (l.map Prod.snd).prod := by
      apply prod_pos_list
      intro d hd
      obtain ⟨q, hq, rfl⟩ := List.mem_map.1 hd
      exact (h q (by simp [hq])).2.2
    simp only [List.map_cons, List.prod_cons] at he
    have h7 : p.1 = p.2 := by
      by_contra hc
      have : p.1 < p.2 := lt_of_le_of_ne h2 hc
      nlinarith
    have h8 : (l.map Prod.fst).prod = (l.map Prod.snd).prod := by
      rw [h7] at he
      exact mul_left_cancel₀ (ne_of_gt h3) he
    intro q hq
    rcases List.mem_cons.1 hq with rfl | hq
    · exact h7
    · exact ih (fun q hq => h q (by simp [hq])) h8 q hq

section
variable {kw : List (Str × Size)}

/-- product of the lengths of a group, whatever the test says -/
theorem group_prod_unknown {L : List (List Axis)} {S : List Size} (hn : L.flatten.Nodup) {g : List Axis} {s : Size}
    (hp : (g, s) ∈ L.zip S) (hu : (g.filter (fun a => !isKnown (kw.map Prod.fst) a)).length ≤ 1)
    (hall : g.all (isKnown (kw.map Prod.fst)) = false) :
    (g.map (fun a => (axisSize kw L S a).val)).prod = (knownProd kw g).val * Int.fdiv s.val (knownProd kw g).val := by
  rw [prod_filter_split (isKnown (kw.map Prod.fst)), ← knownProd_val]
  match hus : g.filter (fun a => !isKnown (kw.map Prod.fst) a), hu with
  | [], _ =>
    exfalso
    rw [← Bool.not_eq_true, List.all_eq_true] at hall
    apply hall
    intro a ha
    by_contra hc
    have : a ∈ g.filter (fun a => !isKnown (kw.map Prod.fst) a) := List.mem_filter.2 ⟨ha, by simpa using hc⟩
    rw [hus] at this; cases this
  | [u], _ =>
    have hug : u ∈ g ∧ isKnown (kw.map Prod.fst) u = false := by
      have : u ∈ g.filter (fun a => !isKnown (kw.map Prod.fst) a) := by rw [hus]; simp
      simpa using this
    simp only [List.map_cons, List.map_nil, List.prod_cons, List.prod_nil, mul_one]
    rw [axisSize_unknown hn hp hug.1 (knownSize_none.2 hug.2)]
    rfl
  | _ :: _ :: _, hu => simp at hu

theorem knownProd_pos (hpos : ∀ p ∈ kw, 0 < p.2.val) {g : List Axis} (hnum : ∀ sd i v, Axis.anon sd i v ∈ g → 0 < v) :
    0 < (knownProd kw g).val := by
  unfold knownProd
  rw [sizeProd_eq]
  apply prod_pos_list
  intro d hd
  obtain ⟨s, hs, rfl⟩ := List.mem_map.1 hd
  obtain ⟨a, ha, has⟩ := List.mem_filterMap.1 hs
  cases a with
  | anon sd i v =>
    simp only [knownSize, Option.some.injEq] at has
    rw [← has]
    show (0 : Int) < (v : Int)
    exact_mod_cast hnum sd i v ha
  | str n => exact hpos _ (dictGet_mem has)

/-- If the reshape to the inferred lengths succeeds, every group passes its test. -/
theorem reshape_detects {L : List (List Axis)} {shape : List Nat} (hl : shape.length = L.length) (hn : L.flatten.Nodup)
    (hint : ∀ p ∈ kw, p.2.isInt = true) (hpos : ∀ p ∈ kw, 0 < p.2.val)
    (hnum : ∀ sd i v, Axis.anon sd i v ∈ L.flatten → 0 < v) (hdim : ∀ d ∈ shape, 0 < d)
    (hu : OneUnknown L (kw.map Prod.fst))
    (hfull : ∀ p ∈ L.zip shape, p.1.all (isKnown (kw.map Prod.fst)) = true → (knownProd kw p.1).val = p.2)
    (hprod : (L.flatten.map fun a => (axisSize kw L (shape.map Size.ofNat) a).val).prod = (shape.prod : Int)) :
    firstErr kw L (shape.map Size.ofNat) = none := by
  set f : Axis → Int := fun a => (axisSize kw L (shape.map Size.ofNat) a).val with hf
  have hnum' : ∀ g ∈ L, ∀ sd i v, Axis.anon sd i v ∈ g → 0 < v :=
    fun g hg sd i v h => hnum sd i v (List.mem_flatten.2 ⟨g, hg, h⟩)
  have hgroup : ∀ p ∈ L.zip shape, 0 ≤ (p.1.map f).prod ∧ (p.1.map f).prod ≤ p.2 ∧ (0 : Int) < p.2 := by
    rintro ⟨g, d⟩ hp
    have hg : g ∈ L := (List.of_mem_zip hp).1
    have hd : 0 < d := hdim d (List.of_mem_zip hp).2
    by_cases hall : g.all (isKnown (kw.map Prod.fst)) = true
    · have h1 : (g.map f).prod = (knownProd kw g).val := by
        rw [knownProd_val L (shape.map Size.ofNat), List.filter_eq_self.2 (List.all_eq_true.1 hall)]
      rw [h1, hfull _ hp hall]
      exact ⟨by simp, le_rfl, by exact_mod_cast hd⟩
    · rw [group_prod_unknown hn (mem_zip_ofNat hp) (hu g hg) (by simpa using hall)]
      have hk := knownProd_pos hpos (hnum' g hg)
      have h1 := Int.fmod_add_mul_fdiv (Size.ofNat d).val (knownProd kw g).val
      have h2 : 0 ≤ Int.fmod (Size.ofNat d).val (knownProd kw g).val := Int.fmod_nonneg_of_pos _ hk
      have h3 : 0 ≤ Int.fdiv (Size.ofNat d).val (knownProd kw g).val := Int.fdiv_nonneg (by simp [Size.ofNat]) hk.le
      refine ⟨mul_nonneg hk.le h3, ?_, by exact_mod_cast hd⟩
      have h4 : (Size.ofNat d).val = (d : Int) := rfl
      simp only
      rw [h4] at h1 h2 ⊢
      omega
  have key : ∀ p ∈ L.zip shape, (p.1.map f).prod = (p.2 : Int) := by
    have h1 := prods_eq (l := (L.zip shape).map fun p => ((p.1.map f).prod, (p.2 : Int))) (by
      intro q hq
      obtain ⟨p, hp, rfl⟩ := List.mem_map.1 hq
      exact hgroup p hp) (by
      rw [List.map_map, List.map_map]
      have e1 : ((L.zip shape).map (Prod.fst ∘ fun p => ((p.1.map f).prod, (p.2 : Int)))).prod = (L.flatten.map f).prod := by
        have : (L.zip shape).map (Prod.fst ∘ fun p => ((p.1.map f).prod, (p.2 : Int))) =
            ((L.zip shape).map Prod.fst).map (fun g => (g.map f).prod) := by rw [List.map_map]; rfl
        rw [this, List.map_fst_zip (by omega), List.map_flatten, List.prod_flatten, List.map_map]
        rfl
      have e2 : ((L.zip shape).map (Prod.snd ∘ fun p => ((p.1.map f).prod, (p.2 : Int)))).prod = (shape.prod : Int) := by
        have : (L.zip shape).map (Prod.snd ∘ fun p => ((p.1.map f).prod, (p.2 : Int))) =
            ((L.zip shape).map Prod.snd).map Int.ofNat := by rw [List.map_map]; rfl
        rw [this, List.map_snd_zip (by omega)]
        clear * -
        induction shape with
        | nil => rfl
        | cons d s ih => simp only [List.map_cons, List.prod_cons, ih]; push_cast; rfl
      rw [e1, e2, hprod])
    intro p hp
    exact h1 _ (List.mem_map.2 ⟨p, hp, rfl⟩)
  rw [firstErr_none]
  intro p hp
  obtain ⟨d, hd, hp'⟩ := zip_map_ofNat hp
  obtain ⟨g, s⟩ := p
  obtain rfl : s = Size.ofNat d := hd
  have hg : g ∈ L := (List.of_mem_zip hp').1
  unfold groupErr
  simp only [knownProd_isInt hint, Size.ofNat, Bool.and_self, if_true]
  by_cases hall : g.all (isKnown (kw.map Prod.fst)) = true
  · have h1 : ¬ ((d : Int) ≠ (knownProd kw g).val) := by rw [hfull _ hp' hall]; simp
    rw [if_pos hall]
    exact if_neg h1
  · have hk := knownProd_pos hpos (hnum' g hg)
    have h2 := key _ hp'
    simp only at h2
    rw [group_prod_unknown hn hp (hu g hg) (by simpa using hall)] at h2
    have h1 := Int.fmod_add_mul_fdiv (Size.ofNat d).val (knownProd kw g).val
    have h4 : (Size.ofNat d).val = (d : Int) := rfl
    rw [h4] at h1 h2
    have h3 : ¬ (Int.fmod (d : Int) (knownProd kw g).val ≠ 0) := by
      rw [ne_eq, not_not]
      omega
    rw [if_neg hall, if_neg (ne_of_gt hk)]
    exact if_neg h3

end

/-! ### dividing by `UnknownSize` does not happen -/

theorem getE_err {β : Type} {l : List β} {k : Nat} {e : PyErr} (h : getE l k = .error e) : e = .index := by
  unfold getE at h
  split at h
  · cases h
  · cases h; rfl

theorem setE_err {β : Type} {l : List β} {k : Nat} {v : β} {e : PyErr} (h : setE l k v = .error e) : e = .index := by
  unfold setE at h
  split at h
  · cases h
  · cases h; rfl

theorem mapE_err {β γ : Type} {f : β → Py γ} {l : List β} {e : PyErr} {P : PyErr → Prop} (hf : ∀ a e, f a = .error e → P e)
    (h : mapE f l = .error e) : P e := by
  induction l with
  | nil => cases h
  | cons a l ih =>
    simp only [mapE] at h
    cases ha : f a with
    | error e' => rw [ha] at h; cases h; exact hf a _ ha
    | ok v =>
      rw [ha] at h
      simp only at h
      cases hl : mapE f l with
      | error e' => rw [hl] at h; cases h; exact ih hl
      | ok vs => rw [hl] at h; cases h

theorem gsizeProd_known {l : List GSize} (h : ∀ g ∈ l, g ≠ .unknown) : gsizeProd l ≠ .unknown := by
  have : ∀ g : GSize, g ≠ .unknown → l.foldl GSize.mul g ≠ .unknown := by
    induction l with
    | nil => exact fun g hg => hg
    | cons a l ih =>
      intro g hg
      refine ih (fun b hb => h b (by simp [hb])) _ ?_
      have ha := h a (by simp)
      cases g <;> cases a <;> simp_all [GSize.mul]
  exact this _ (by simp)

theorem divideG_type {n p : GSize} (h : divideG n p = .error .type) : p = .unknown := by
  cases n <;> cases p <;> simp only [divideG, GSize.asInt, GSize.fdiv] at h <;> first | rfl | cases h | skip
  split at h
  · cases h
  · split at h <;> cases h

theorem mem_of_mapE_getE {l vs : List GSize} {ks : List Nat} (h : mapE (getE l) ks = .ok vs) :
    ∀ v ∈ vs, ∃ k ∈ ks, l[k]? = some v := by
  induction ks generalizing vs with
  | nil => cases h; simp
  | cons k ks ih =>
    simp only [mapE] at h
    cases hk : getE l k with
    | error e => rw [hk] at h; cases h
    | ok w =>
      rw [hk] at h
      simp only at h
      cases hl : mapE (getE l) ks with
      | error e => rw [hl] at h; cases h
      | ok ws =>
        rw [hl] at h
        cases h
        intro v hv
        rcases List.mem_cons.1 hv with rfl | hv
        · refine ⟨k, by simp, ?_⟩
          unfold getE at hk
          split at hk
          · rename_i h'; cases hk; exact h'
          · cases hk
        · obtain ⟨k', h1, h2⟩ := ih hl v hv
          exact ⟨k', by simp [h1], h2⟩

/-- known positions hold no `UnknownSize` -/
def KnownAt (K : Nat → Prop) (l : List GSize) : Prop := ∀ k, K k → l[k]? ≠ some .unknown

theorem KnownAt.set {K : Nat → Prop} {l m : List GSize} (h : KnownAt K l) {u : Nat} (hu : ¬ K u) {v : GSize}
    (hm : setE l u v = .ok m) : KnownAt K m := by
  unfold setE at hm
  split at hm
  · cases hm
    intro k hk
    rw [List.getElem?_set_ne (by rintro rfl; exact hu hk)]
    exact h k hk
  · cases hm

theorem inferAxisG_type {K : Nat → Prop} {l : List GSize} (h : KnownAt K l) {need : Bool} {n : GSize}
    {ku : List Nat × List Nat} (hk : ∀ k ∈ ku.1, K k) (hu : ∀ u ∈ ku.2, ¬ K u) :
    inferAxisG (l, need) n ku ≠ .error .type ∧ ∀ st, inferAxisG (l, need) n ku = .ok st → KnownAt K st.1 := by
  obtain ⟨known, unknown⟩ := ku
  revert hk hu
  have general : ∀ o : Py (List GSize × Bool), o =
      (match mapE (getE l) known with
      | .error e => .error e
      | .ok vs =>
        match unknown with
        | [] =>
          if mismatchG n (gsizeProd vs) then .error .einops
          else .ok (l, need || decide (known.length + unknown.length ≠ 1))
        | u :: _ =>
          match divideG n (gsizeProd vs) with
          | .error e => .error e
          | .ok v =>
            match setE l u v with
            | .error e => .error e
            | .ok ls => .ok (ls, need || decide (known.length + unknown.length ≠ 1)) : Py (List GSize × Bool)) →
      (∀ k ∈ known, K k) → (∀ u ∈ unknown, ¬ K u) → o ≠ .error .type ∧ ∀ st, o = .ok st → KnownAt K st.1 := by
    rintro o rfl hk hu
    cases hm : mapE (getE l) known with
    | error e =>
      have := mapE_err (P := fun e => e = .index) (fun a e h => getE_err h) hm
      subst this
      exact ⟨by simp, by simp⟩
    | ok vs =>
      simp only
      have hvs : gsizeProd vs ≠ .unknown := by
        apply gsizeProd_known
        intro g hg hgu
        obtain ⟨k, h1, h2⟩ := mem_of_mapE_getE hm g hg
        exact h k (hk k h1) (hgu ▸ h2)
      cases unknown with
      | nil =>
        simp only
        split
        · exact ⟨by simp, by simp⟩
        · refine ⟨by simp, ?_⟩
          rintro st ⟨⟩
          exact h
      | cons u us =>
        simp only
        cases hd : divideG n (gsizeProd vs) with
        | error e =>
          simp only
          refine ⟨?_, by simp⟩
          rintro ⟨⟩
          exact hvs (divideG_type hd)
        | ok v =>
          simp only
          cases hs : setE l u v with
          | error e =>
            have := setE_err hs
            subst this
            exact ⟨by simp, by simp⟩
          | ok ls =>
            refine ⟨by simp, ?_⟩
            rintro st ⟨⟩
            exact h.set (hu u (by simp)) hs
  cases known with
  | cons k ks => exact general _ rfl
  | nil =>
    cases unknown with
    | nil => exact general _ rfl
    | cons u us =>
      cases us with
      | cons u' us => exact general _ rfl
      | nil =>
        intro _ hu
        simp only [inferAxisG]
        cases hs : setE l u n with
        | error e =>
          have := setE_err hs
          subst this
          exact ⟨by simp, by simp⟩
        | ok ls =>
          refine ⟨by simp, ?_⟩
          rintro st ⟨⟩
          exact h.set (hu u (by simp)) hs

theorem inferAllG_type {K : Nat → Prop} {shape : List GSize} {rest : List ((List Nat × List Nat) × Nat)}
    (hr : ∀ q ∈ rest, (∀ k ∈ q.1.1, K k) ∧ ∀ u ∈ q.1.2, ¬ K u) {l : List GSize} (h : KnownAt K l) (need : Bool) :
    inferAllG shape (l, need) rest ≠ .error .type := by
  induction rest generalizing l need with
  | nil => simp [inferAllG]
  | cons a rest ih =>
    obtain ⟨ku, i⟩ := a
    simp only [inferAllG]
    cases hn : getE shape i with
    | error e =>
      have := getE_err hn
      subst this
      simp
    | ok n =>
      simp only
      obtain ⟨h1, h2⟩ := inferAxisG_type (need := need) (n := n) h (hr (ku, i) (by simp)).1 (hr (ku, i) (by simp)).2
      cases hs : inferAxisG (l, need) n ku with
      | error e =>
        rw [hs] at h1
        exact h1
      | ok st =>
        obtain ⟨l1, need1⟩ := st
        exact ih (fun q hq => hr q (by simp [hq])) (h2 _ hs) need1

theorem setDimsG_known {m : List (Str × Nat)} {ds : List (Str × GSize)} (hd : ∀ p ∈ ds, p.2 ≠ .unknown) {l : List GSize}
    (h : ∀ g ∈ l, g ≠ .unknown) :
    setDimsG m l ds ≠ .error .type ∧ ∀ ls, setDimsG m l ds = .ok ls → ∀ g ∈ ls, g ≠ .unknown := by
  induction ds generalizing l with
  | nil =>
    refine ⟨by simp [setDimsG], ?_⟩
    rintro ls ⟨⟩
    exact h
  | cons p ds ih =>
    obtain ⟨n, s⟩ := p
    simp only [setDimsG]
    cases hk : dictGetE m n with
    | error e =>
      have : e = .key := by
        unfold dictGetE at hk
        split at hk
        · cases hk
        · cases hk; rfl
      subst this
      exact ⟨by simp, by simp⟩
    | ok k =>
      simp only
      cases hs : setE l k s with
      | error e =>
        have := setE_err hs
        subst this
        exact ⟨by simp, by simp⟩
      | ok l' =>
        refine ih (fun q hq => hd q (by simp [hq])) ?_
        intro g hg
        unfold setE at hs
        split at hs
        · cases hs
          rcases List.mem_or_eq_of_mem_set hg with hg | rfl
          · exact h g hg
          · exact hd (n, g) (by simp)
        · cases hs

theorem reconstructG_type {K : Nat → Prop} {r : TransformRecipe} {shape : List GSize} {kw : List (Str × GSize)}
    (hd : ∀ p ∈ kw, p.2 ≠ .unknown) (hr : ∀ q ∈ r.inputComposition, (∀ k ∈ q.1, K k) ∧ ∀ u ∈ q.2, ¬ K u) :
    reconstructG r shape kw ≠ .error .type := by
  unfold reconstructG
  obtain ⟨h1, h2⟩ := setDimsG_known (m := r.axisName2elementary) hd (l := r.elementaryAxesLengths.map GSize.int) (by simp)
  cases hs : setDimsG r.axisName2elementary (r.elementaryAxesLengths.map GSize.int) kw with
  | error e => rw [hs] at h1; simpa using h1
  | ok ls0 =>
    simp only
    have h3 := inferAllG_type (K := K) (shape := shape) (rest := r.inputComposition.zipIdx) (l := ls0) (by
      intro q hq
      exact hr q.1 (List.fst_mem_of_mem_zipIdx hq)) (fun k _ hk => h2 _ hs _ (List.mem_of_getElem? hk) rfl) false
    cases hi : inferAllG shape (ls0, false) r.inputComposition.zipIdx with
    | error e => rw [hi] at h3; simpa using h3
    | ok st =>
      obtain ⟨ls, need⟩ := st
      simp only
      cases hg : mapE (fun g => mapE (getE ls) g) r.outputCompositeAxes with
      | error e =>
        have := mapE_err (P := fun e => e = .index) (fun a e h => mapE_err (P := fun e => e = .index)
          (fun a e h => getE_err h) h) hg
        subst this
        simp
      | ok groups =>
        simp only
        cases ha : mapE (addedSizeG ls) r.addedAxes with
        | error e =>
          have := mapE_err (P := fun e => e = .index) (fun a e h => by
            unfold addedSizeG at h
            cases hk : getE ls a.2 with
            | error e' => rw [hk] at h; cases h; exact getE_err hk
            | ok s => rw [hk] at h; cases h) ha
          subst this
          simp
        | ok added => simp

theorem recipeOf_disjoint (so : SetOrder) {ex : Expanded} (names : List Str) :
    ∀ q ∈ (recipeOf so ex names).inputComposition,
      (∀ k ∈ q.1, ∃ a ∈ elementary so ex, isKnown names a = true ∧ k = (elementary so ex).idxOf a) ∧
      ∀ u ∈ q.2, ¬ ∃ a ∈ elementary so ex, isKnown names a = true ∧ u = (elementary so ex).idxOf a := by
  intro q hq
  have hsub : ∀ g ∈ ex.left, ∀ a ∈ g, a ∈ elementary so ex := fun g hg a ha =>
    (mem_elementary so ex).2 (.inl (List.mem_flatten.2 ⟨g, hg, ha⟩))
  simp only [recipeOf] at hq
  obtain ⟨⟨g, i⟩, hgi, rfl⟩ := List.mem_map.1 hq
  have hg : g ∈ ex.left := List.fst_mem_of_mem_zipIdx hgi
  constructor
  · intro k hk
    simp only [kuOf] at hk
    obtain ⟨a, ha, rfl⟩ := List.mem_map.1 hk
    rw [so.mem, List.mem_filter] at ha
    exact ⟨a, hsub g hg a ha.1, ha.2, rfl⟩
  · intro u hu
    simp only [kuOf] at hu
    obtain ⟨b, hb, rfl⟩ := List.mem_map.1 hu
    rw [List.mem_filter] at hb
    rintro ⟨a, ha, hka, he⟩
    have hbE := hsub g hg b hb.1
    have := (List.idxOf_inj hbE).1 he
    subst this
    simp [hka] at hb

/-! ### numbers in patterns are positive -/

theorem number_pos [PyUnicode] {pattern : Str} {GL GR : List Elem} (hp : IsPattern pattern GL GR) {n : Nat}
    {L R : List (List Axis)} (hg : Groups GL GR n L R) {sd i v : Nat} (h : Axis.anon sd i v ∈ L.flatten) : 0 < v := by
  obtain ⟨_, l, r, _, hL, hR⟩ := isPattern_split hp
  obtain ⟨m, _, rfl, rfl, _⟩ := hg
  rw [flatten_spread, mem_flatMap_subEll] at h
  rcases h with ⟨h, _⟩ | ⟨h, _⟩
  · obtain ⟨_, _, hi, h1, h2, rfl⟩ := anon_mem_wordsAxes h
    have hw := hL.words_ok _ (List.getElem_mem hi)
    rcases hw with hw | ⟨_, hw⟩ | hw
    · exact absurd hw (number_ne_dots h1)
    · exact Nat.pos_of_ne_zero hw
    · exact absurd h1 (isName_not_number false hw)
  · unfold ellAxes at h
    simp at h

end Einops
