import Verif.Proofs.Plan

/-!
`reconstruct` applied to a recipe made by `buildRecipe`.
-/

namespace Einops

/-- the first failing input dimension -/
def firstErr (kw : List (Str × Size)) (gs : List (List Axis)) (shape : List Size) : Option PyErr :=
  (gs.zip shape).findSome? (fun p => groupErr kw p.1 p.2)

section
variable (so : SetOrder) (ex : Expanded) (wf : PlanWF ex)

include wf in
theorem setDims_eq (m : List (Str × Nat)) (ds : List (Str × Size)) (hn : (ds.map Prod.fst).Nodup)
    (hm : ∀ n ∈ ds.map Prod.fst, dictGet m n = some ((elementary so ex).idxOf (.str n)) ∧
      Axis.str n ∈ elementary so ex) (F : Axis → Size) :
    setDims m ((elementary so ex).map F) ds = .ok ((elementary so ex).map (fun a => match a with
      | .str n => (dictGet ds n).getD (F a)
      | .anon .. => F a)) := by
  induction ds generalizing F with
  | nil =>
    simp only [setDims, dictGet]
    congr 2
    funext a
    cases a <;> rfl
  | cons p ds ih =>
    obtain ⟨n, s⟩ := p
    simp only [List.map_cons, List.nodup_cons] at hn
    obtain ⟨h1, h2⟩ := hm n (by simp)
    simp only [setDims, dictGetE, h1, setE, List.length_map, List.idxOf_lt_length_of_mem h2, if_true]
    rw [set_idxOf_map _ _ h2 (elementary_nodup so ex wf), ih hn.2 (fun n hn => hm n (by simp [hn]))]
    congr 1
    apply List.map_congr_left
    intro a _
    cases a with
    | anon => simp
    | str k =>
      simp only [dictGet]
      by_cases hk : n = k
      · subst hk
        have : dictGet ds n = none := dictGet_none.2 hn.1
        simp [this]
      · have hk' : ¬ k = n := fun h => hk h.symm
        simp [hk, hk']

theorem filterMap_known (kw : List (Str × Size)) (F : Axis → Size)
    (hF : ∀ a s, knownSize kw a = some s → F a = s) (g : List Axis) :
    (g.filter (isKnown (kw.map Prod.fst))).map F = g.filterMap (knownSize kw) := by
  induction g with
  | nil => rfl
  | cons a g ih =>
    have hk := knownSize_isSome (kw := kw) (a := a)
    cases hka : knownSize kw a with
    | none =>
      rw [hka] at hk
      rw [List.filter_cons_of_neg (by simp [← hk]), List.filterMap_cons_none hka, ih]
    | some s =>
      rw [hka] at hk
      rw [List.filter_cons_of_pos (by simp [← hk]), List.filterMap_cons_some hka, List.map_cons, ih, hF a s hka]

theorem knownSize_none {kw : List (Str × Size)} {a : Axis} :
    knownSize kw a = none ↔ isKnown (kw.map Prod.fst) a = false := by
  rw [← knownSize_isSome]; cases knownSize kw a <;> simp

theorem Size.fdiv_one (s : Size) : s.fdiv ⟨1, true⟩ = s := by
  cases s; simp [Size.fdiv]

include wf in
theorem inferAxis_eq (kw : List (Str × Size)) (F : Axis → Size) (hF : ∀ a s, knownSize kw a = some s → F a = s)
    (need : Bool) (i : Nat) (g : List Axis) (hg : ∀ a ∈ g, a ∈ elementary so ex)
    (hu : (g.filter (fun a => !isKnown (kw.map Prod.fst) a)).length ≤ 1) (s : Size) :
    inferAxis ((elementary so ex).map F, need) s (kuOf so ex (kw.map Prod.fst) i g) =
      match groupErr kw g s with
      | some e => .error e
      | none => .ok ((elementary so ex).map (fun a =>
          if a ∈ g ∧ knownSize kw a = none then s.fdiv (knownProd kw g) else F a),
          need || decide (g.length ≠ 1)) := by
  have hE := elementary_nodup so ex wf
  set names := kw.map Prod.fst with hnames
  set ks := so.order (2 * i + 1) (g.filter (isKnown names)) with hks
  have hperm : ks.Perm (g.filter (isKnown names)) := so.perm _ _
  have hlenks : ks.length = (g.filter (isKnown names)).length := hperm.length_eq
  have hlen : (g.filter (isKnown names)).length + (g.filter (fun a => !isKnown names a)).length = g.length :=
    (List.length_eq_length_filter_add (isKnown names)).symm
  have hget : mapE (getE ((elementary so ex).map F)) (ks.map (elementary so ex).idxOf) = .ok (ks.map F) := by
    rw [mapE_map]
    apply mapE_eq_ok_map
    intro a ha
    have : a ∈ elementary so ex := hg a (List.mem_of_mem_filter (hperm.mem_iff.1 ha))
    simp only [getE, getElem?_idxOf_map _ F this]
  have hkp : sizeProd (ks.map F) = knownProd kw g := by
    rw [sizeProd_perm (hperm.map F), filterMap_known kw F hF]
    rfl
  -- the list of unknown axes
  match hus : g.filter (fun a => !isKnown names a), hu with
  | [], _ =>
    have hall : g.all (isKnown names) = true := by
      rw [List.all_eq_true]
      intro a ha
      by_contra hc
      have : a ∈ g.filter (fun a => !isKnown names a) := List.mem_filter.2 ⟨ha, by simpa using hc⟩
      rw [hus] at this; cases this
    have hno : (elementary so ex).map (fun a => if a ∈ g ∧ knownSize kw a = none then s.fdiv (knownProd kw g) else F a) =
        (elementary so ex).map F := by
      apply List.map_congr_left
      intro a _
      rw [if_neg]
      rintro ⟨h1, h2⟩
      rw [knownSize_none] at h2
      rw [List.all_eq_true] at hall
      have := hall a h1
      rw [this] at h2; cases h2
    rw [hus] at hlen
    have hkl : (ks.map (elementary so ex).idxOf).length = g.length := by
      rw [List.length_map, hlenks]; simpa using hlen
    unfold groupErr
    rw [hno, ← hnames]
    simp only [hall, if_true, kuOf, hus, List.map_nil]
    rw [← hks]
    unfold inferAxis
    simp only
    rw [hget]
    simp only [hkp, List.length_nil, Nat.add_zero, hkl]
    by_cases h1 : (s.isInt && (knownProd kw g).isInt) = true
    · simp only [h1, if_true, Bool.true_and]
      by_cases h2 : s.val = (knownProd kw g).val <;> simp [h2]
    · simp [h1]
  | [u], _ =>
    have hug : u ∈ g ∧ isKnown names u = false := by
      have : u ∈ g.filter (fun a => !isKnown names a) := by rw [hus]; simp
      simpa using this
    have huE := hg u hug.1
    have hall : g.all (isKnown names) = false := by
      rw [← Bool.not_eq_true, List.all_eq_true]
      intro h
      rw [h u hug.1] at hug
      exact Bool.noConfusion hug.2
    have hset : ∀ v, setE ((elementary so ex).map F) ((elementary so ex).idxOf u) v =
        .ok ((elementary so ex).map (fun a => if a ∈ g ∧ knownSize kw a = none then v else F a)) := by
      intro v
      simp only [setE, List.length_map, List.idxOf_lt_length_of_mem huE, if_true]
      rw [set_idxOf_map _ _ huE hE]
      congr 1
      apply List.map_congr_left
      intro a _
      congr 1
      apply propext
      rw [knownSize_none, ← hnames]
      have : a ∈ g ∧ isKnown names a = false ↔ a ∈ g.filter (fun a => !isKnown names a) := by simp
      rw [this, hus, List.mem_singleton]
    rw [hus] at hlen
    unfold groupErr
    rw [← hnames]
    simp only [hall, kuOf, hus, List.map_cons, List.map_nil, Bool.false_eq_true, if_false]
    rw [← hks]
    match hkse : ks with
    | [] =>
      have hkp1 : knownProd kw g = ⟨1, true⟩ := by
        rw [← hkp]; rfl
      have hgl : g.length = 1 := by simp at hlenks; rw [← hlen]; simp [← hlenks]
      simp only [inferAxis, List.map_nil]
      rw [hset, hkp1]
      simp [Size.fdiv_one, hgl]
    | k :: ks' =>
      have hkl : ((k :: ks').map (elementary so ex).idxOf).length + 1 = g.length := by
        rw [List.length_map, hlenks]; simpa using hlen
      unfold inferAxis
      simp only [List.map_cons] at hget ⊢
      rw [hget]
      simp only
      rw [List.map_cons] at hkp
      rw [hkp, hset]
      simp only [List.map_cons] at hkl
      simp only [List.length_singleton, hkl]
      by_cases h1 : (s.isInt && (knownProd kw g).isInt) = true
      · simp only [h1, if_true, Bool.true_and]
        by_cases h2 : (knownProd kw g).val = 0
        · simp [h2]
        · by_cases h3 : Int.fmod s.val (knownProd kw g).val = 0 <;> simp [h2, h3]
      · simp [h1]
  | _ :: _ :: _, hu => simp at hu

/-- lengths once the groups `gs` have been treated -/
def lengthsAfter (kw : List (Str × Size)) (gs : List (List Axis)) (sh : List Size) (F : Axis → Size) (a : Axis) : Size :=
  match knownSize kw a with
  | some s => s
  | none =>
    match (gs.zip sh).find? (fun p => decide (a ∈ p.1)) with
    | some p => p.2.fdiv (knownProd kw p.1)
    | none => F a

include wf in
theorem inferAll_eq (kw : List (Str × Size)) (shape : List Size) (gs : List (List Axis)) (i : Nat) (F : Axis → Size)
    (hF : ∀ a s, knownSize kw a = some s → F a = s) (need : Bool)
    (hsub : ∀ g ∈ gs, ∀ a ∈ g, a ∈ elementary so ex) (hnd : gs.flatten.Nodup)
    (hu : ∀ g ∈ gs, (g.filter (fun a => !isKnown (kw.map Prod.fst) a)).length ≤ 1)
    (hlen : (shape.drop i).length = gs.length) :
    inferAll shape ((elementary so ex).map F, need)
        ((gs.zipIdx i).map (fun p => (kuOf so ex (kw.map Prod.fst) p.2 p.1, p.2))) =
      match firstErr kw gs (shape.drop i) with
      | some e => .error e
      | none => .ok ((elementary so ex).map (lengthsAfter kw gs (shape.drop i) F),
          need || gs.any (fun g => decide (g.length ≠ 1))) := by
  induction gs generalizing i F need with
  | nil =>
    simp only [List.zipIdx_nil, List.map_nil, inferAll, firstErr, List.zip_nil_left, List.findSome?_nil, List.any_nil,
      Bool.or_false]
    congr 2
    apply List.map_congr_left
    intro a _
    unfold lengthsAfter
    cases h : knownSize kw a with
    | none => simp
    | some s => simp [hF a s h]
  | cons g gs ih =>
    have hi : i < shape.length := by
      rw [List.length_drop, List.length_cons] at hlen
      omega
    have hdrop : shape.drop i = shape[i] :: shape.drop (i + 1) := List.drop_eq_getElem_cons hi
    have hlen' : (shape.drop (i + 1)).length = gs.length := by
      rw [hdrop, List.length_cons, List.length_cons] at hlen; omega
    simp only [List.zipIdx_cons, List.map_cons, inferAll, getE, List.getElem?_eq_getElem hi]
    rw [inferAxis_eq so ex wf kw F hF need i g (hsub g (by simp)) (hu g (by simp)) shape[i]]
    unfold firstErr
    rw [hdrop, List.zip_cons_cons, List.findSome?_cons]
    cases hge : groupErr kw g shape[i] with
    | some e => rfl
    | none =>
      simp only
      rw [List.flatten_cons, List.nodup_append] at hnd
      rw [ih (i + 1) _ (by
        intro a s ha
        rw [if_neg (by rw [ha]; simp)]
        exact hF a s ha) _ (fun g' hg' => hsub g' (by simp [hg'])) hnd.2.1 (fun g' hg' => hu g' (by simp [hg'])) hlen']
      rw [show (gs.zip (shape.drop (i + 1))).findSome? (fun p => groupErr kw p.1 p.2) =
        firstErr kw gs (shape.drop (i + 1)) from rfl]
      cases firstErr kw gs (shape.drop (i + 1)) with
      | some e => rfl
      | none =>
        simp only [List.any_cons, Bool.or_assoc]
        congr 2
        apply List.map_congr_left
        intro a _
        unfold lengthsAfter
        cases hk : knownSize kw a with
        | some s => rfl
        | none =>
          simp only [List.zip_cons_cons, and_true]
          by_cases hag : a ∈ g
          · rw [List.find?_cons_of_pos (by simpa using hag)]
            have : (gs.zip (shape.drop (i + 1))).find? (fun p => decide (a ∈ p.1)) = none := by
              rw [List.find?_eq_none]
              intro p hp
              simp only [decide_eq_true_eq]
              intro hap
              have hp1 : p.1 ∈ gs := (List.of_mem_zip (b := p.2) hp).1
              exact hnd.2.2 a hag a (List.mem_flatten.2 ⟨_, hp1, hap⟩) rfl
            rw [this]
            simp [hag, hk]
          · rw [List.find?_cons_of_neg (by simpa using hag)]
            cases (gs.zip (shape.drop (i + 1))).find? (fun p => decide (a ∈ p.1)) with
            | some p => rfl
            | none => simp [hag]

include wf in
theorem reconstruct_plan [PyUnicode] (kw : List (Str × Size)) (shape : List Size)
    (hkw : (kw.map Prod.fst).Nodup) (hn : namesOK ex (kw.map Prod.fst)) (hi : OneUnknown ex.left (kw.map Prod.fst))
    (hlen : shape.length = ex.left.length) :
    reconstruct (recipeOf so ex (kw.map Prod.fst)) shape kw =
      match firstErr kw ex.left shape with
      | some e => .error e
      | none => .ok { cookedOf ex kw shape with
          initShapes := if ex.left.any (fun g => g.length ≠ 1) then
            some (((elementary so ex).map (axisSize kw ex.left shape)).take
              (ex.rght.flatten.filter (fun a => a ∈ ex.leftIds) ++ ex.left.flatten.filter (fun a => a ∉ ex.rghtIds)).length)
            else none } := by
  have hE := elementary_nodup so ex wf
  have hsubL : ∀ g ∈ ex.left, ∀ a ∈ g, a ∈ elementary so ex := fun g hg a ha =>
    (mem_elementary so ex).2 (.inl (List.mem_flatten.2 ⟨g, hg, ha⟩))
  have hsubR : ∀ a ∈ ex.rght.flatten, a ∈ elementary so ex := fun a ha =>
    (mem_elementary so ex).2 (wf.rght_mem a ha)
  unfold reconstruct
  -- the keyword sizes
  have h0 : (recipeOf so ex (kw.map Prod.fst)).elementaryAxesLengths.map Size.ofInt =
      (elementary so ex).map (fun a => Size.ofInt (markedLength (kw.map Prod.fst) a)) := by
    simp [recipeOf, List.map_map, Function.comp_def]
  rw [h0, setDims_eq so ex wf _ kw hkw (by
    intro n hn'
    refine ⟨?_, ?_⟩
    · simp only [recipeOf]
      rw [dictGet_map (kw.map Prod.fst) (fun n => (elementary so ex).idxOf (.str n)), if_pos hn']
    · rw [mem_elementary]; exact (hn n hn').2)]
  simp only
  set F : Axis → Size := fun a => match a with
      | .str n => (dictGet kw n).getD (Size.ofInt (markedLength (kw.map Prod.fst) a))
      | .anon .. => Size.ofInt (markedLength (kw.map Prod.fst) a) with hFdef
  have hF : ∀ a s, knownSize kw a = some s → F a = s := by
    intro a s h
    cases a with
    | str n => simp only [knownSize] at h; simp [F, h]
    | anon sd ix v =>
      simp only [knownSize, Option.some.injEq] at h
      simp [F, ← h, markedLength, firstLength, Size.ofInt]
  have hF2 : ∀ a, knownSize kw a = none → F a = ⟨unknownAxisLength, true⟩ := by
    intro a h
    cases a with
    | anon => simp [knownSize] at h
    | str n =>
      have h' := (knownSize_none.1 h)
      simp only [knownSize] at h
      have hm := (markedLength_unknown (kw.map Prod.fst) (.str n)).2 h'
      simp [F, h, hm, Size.ofInt]
  have hcomp : (recipeOf so ex (kw.map Prod.fst)).inputComposition.zipIdx =
      (ex.left.zipIdx 0).map (fun p => (kuOf so ex (kw.map Prod.fst) p.2 p.1, p.2)) := by
    simp only [recipeOf]
    apply List.ext_getElem?
    intro k
    simp only [List.getElem?_zipIdx, List.getElem?_map]
    cases ex.left[k]? <;> simp
  rw [hcomp]
  have hinf := inferAll_eq so ex wf kw shape ex.left 0 F hF false hsubL wf.left_nodup hi (by simpa using hlen)
  rw [List.drop_zero] at hinf
  rw [show ex.left.zipIdx = ex.left.zipIdx 0 from rfl] at *
  rw [hinf]
  cases firstErr kw ex.left shape with
  | some e => rfl
  | none =>
    simp only [Bool.false_or]
    have hla : lengthsAfter kw ex.left shape F = axisSize kw ex.left shape := by
      funext a
      unfold lengthsAfter axisSize
      cases h : knownSize kw a with
      | some s => rfl
      | none =>
        simp only
        cases (ex.left.zip shape).find? (fun p => decide (a ∈ p.1)) with
        | some p => rfl
        | none => simp [hF2 a h]
    rw [hla]
    set len := axisSize kw ex.left shape with hlendef
    have hget : ∀ a ∈ ex.rght.flatten, getE ((elementary so ex).map len) ((elementary so ex).idxOf a) = .ok (len a) := by
      intro a ha
      simp only [getE, getElem?_idxOf_map _ len (hsubR a ha)]
    have hgroups : mapE (fun g => mapE (getE ((elementary so ex).map len)) g)
        (recipeOf so ex (kw.map Prod.fst)).outputCompositeAxes = .ok (ex.rght.map (fun g => g.map len)) := by
      simp only [recipeOf]
      rw [mapE_map]
      apply mapE_eq_ok_map
      intro g hg
      rw [mapE_map]
      exact mapE_eq_ok_map (fun a ha => hget a (List.mem_flatten.2 ⟨g, hg, ha⟩))
    rw [hgroups]
    simp only
    have hadded : mapE (addedSize ((elementary so ex).map len)) (recipeOf so ex (kw.map Prod.fst)).addedAxes =
        .ok ((ex.rght.flatten.zipIdx.filter (fun p => p.1 ∉ ex.leftIds)).map (fun p => (p.2, len p.1))) := by
      simp only [recipeOf]
      rw [mapE_map]
      apply mapE_eq_ok_map
      intro p hp
      have := List.fst_mem_of_mem_zipIdx (List.mem_of_mem_filter hp)
      simp only [addedSize, hget p.1 this]
    rw [hadded]
    simp only
    congr 1
    unfold cookedOf
    simp only [← hlendef]
    congr 1
    · simp only [recipeOf, List.length_map]
    · rw [List.any_map]
      simp only [List.map_map, Function.comp_def, List.length_map]

theorem order_length (wf : ExpandedWF ex) : (ex.rght.flatten.filter (fun a => a ∈ ex.leftIds) ++
    ex.left.flatten.filter (fun a => a ∉ ex.rghtIds)).length = ex.left.flatten.length := by
  rw [List.length_append]
  have hp : (ex.rght.flatten.filter (fun a => decide (a ∈ ex.leftIds))).Perm
      (ex.left.flatten.filter (fun a => decide (a ∈ ex.rghtIds))) := by
    rw [List.perm_ext_iff_of_nodup (wf.rght_nodup.filter _) (wf.left_nodup.filter _)]
    intro a
    simp only [List.mem_filter, decide_eq_true_eq, wf.leftIds_iff, wf.rghtIds_iff]
    exact and_comm
  rw [hp.length_eq]
  have := (List.length_eq_length_filter_add (l := ex.left.flatten) (fun a => decide (a ∈ ex.rghtIds)))
  rw [this]
  congr 2
  apply List.filter_congr
  intro a _
  by_cases h : a ∈ ex.rghtIds <;> simp [h]

theorem take_elementary (f : Axis → Size) :
    ((elementary so ex).map f).take ex.left.flatten.length = ex.left.flatten.map f := by
  unfold elementary
  rw [List.map_append, List.take_left' (by rw [List.length_map])]

theorem reconstruct_recipeOf [PyUnicode] (wf : ExpandedWF ex) (kw : List (Str × Size)) (shape : List Size)
    (hkw : (kw.map Prod.fst).Nodup) (hn : namesOK ex (kw.map Prod.fst)) (hi : OneUnknown ex.left (kw.map Prod.fst))
    (hlen : shape.length = ex.left.length) :
    reconstruct (recipeOf so ex (kw.map Prod.fst)) shape kw =
      match firstErr kw ex.left shape with
      | some e => .error e
      | none => .ok (cookedOf ex kw shape) := by
  rw [reconstruct_plan so ex wf.plan kw shape hkw hn hi hlen, order_length ex wf, take_elementary]
  cases firstErr kw ex.left shape <;> rfl

end

end Einops
