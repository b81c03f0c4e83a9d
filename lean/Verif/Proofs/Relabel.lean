import Verif.Proofs.Calls
import Verif.Proofs.Algebra

/-! Calls that differ only in how axes are labelled have the same outcome, for every backend. -/

namespace Einops

universe u
variable {α : Type u}

/-- two expanded patterns that differ by the labels of the axes -/
structure SameUpTo (φ : Axis → Axis) (ex ex' : Expanded) (kw kw' : List (Str × Size)) : Prop where
  left : ex'.left = relabel φ ex.left
  rght : ex'.rght = relabel φ ex.rght
  inj : ∀ a ∈ ex.left.flatten ++ ex.rght.flatten, ∀ c ∈ ex.left.flatten ++ ex.rght.flatten, φ a = φ c → a = c
  known : ∀ a ∈ ex.left.flatten ++ ex.rght.flatten, knownSize kw' (φ a) = knownSize kw a

section
variable {φ : Axis → Axis} {ex ex' : Expanded} {kw kw' : List (Str × Size)}

theorem knownProd_relabel {g : List Axis} (h : ∀ a ∈ g, knownSize kw' (φ a) = knownSize kw a) :
    knownProd kw' (g.map φ) = knownProd kw g := by
  unfold knownProd
  congr 1
  induction g with
  | nil => rfl
  | cons a g ih =>
    rw [List.map_cons, List.filterMap_cons, List.filterMap_cons, h a (by simp), ih (fun a ha => h a (by simp [ha]))]

theorem isKnown_relabel {a : Axis} (h : knownSize kw' (φ a) = knownSize kw a) :
    isKnown (kw'.map Prod.fst) (φ a) = isKnown (kw.map Prod.fst) a := by
  rw [← knownSize_isSome, ← knownSize_isSome, h]

theorem groupErr_relabel {g : List Axis} (h : ∀ a ∈ g, knownSize kw' (φ a) = knownSize kw a) (s : Size) :
    groupErr kw' (g.map φ) s = groupErr kw g s := by
  unfold groupErr
  rw [knownProd_relabel h]
  have : (g.map φ).all (isKnown (kw'.map Prod.fst)) = g.all (isKnown (kw.map Prod.fst)) := by
    rw [Bool.eq_iff_iff, List.all_eq_true, List.all_eq_true]
    constructor
    · intro hh a ha
      rw [← isKnown_relabel (h a ha)]
      exact hh _ (List.mem_map_of_mem ha)
    · intro hh a ha
      obtain ⟨c, hc, rfl⟩ := List.mem_map.1 ha
      rw [isKnown_relabel (h c hc)]
      exact hh c hc
  rw [this]

theorem firstErr_relabel {L : List (List Axis)} (h : ∀ a ∈ L.flatten, knownSize kw' (φ a) = knownSize kw a)
    (shape : List Size) : firstErr kw' (relabel φ L) shape = firstErr kw L shape := by
  unfold firstErr relabel
  induction L generalizing shape with
  | nil => rfl
  | cons g L ih =>
    cases shape with
    | nil => rfl
    | cons s shape =>
      simp only [List.map_cons, List.zip_cons_cons, List.findSome?_cons]
      rw [groupErr_relabel (fun a ha => h a (by simp [ha])), ih (fun a ha => h a (by
        rw [List.flatten_cons]; exact List.mem_append_right _ ha))]

theorem axisSize_relabel {L : List (List Axis)} {a : Axis} (hk : knownSize kw' (φ a) = knownSize kw a)
    (h : ∀ c ∈ L.flatten, knownSize kw' (φ c) = knownSize kw c) (hinj : ∀ c ∈ L.flatten, φ a = φ c → a = c)
    (shape : List Size) : axisSize kw' (relabel φ L) shape (φ a) = axisSize kw L shape a := by
  unfold axisSize
  rw [hk]
  cases knownSize kw a with
  | some s => rfl
  | none =>
    simp only
    unfold relabel
    induction L generalizing shape with
    | nil => rfl
    | cons g L ih =>
      cases shape with
      | nil => rfl
      | cons s shape =>
        have hg : (φ a ∈ g.map φ) ↔ a ∈ g := by
          constructor
          · intro hm
            obtain ⟨c, hc, hca⟩ := List.mem_map.1 hm
            rw [hinj c (by simp [hc]) hca.symm]
            exact hc
          · exact List.mem_map_of_mem
        simp only [List.map_cons, List.zip_cons_cons, List.find?_cons, hg]
        by_cases hm : a ∈ g
        · simp only [hm, decide_true]
          rw [knownProd_relabel (fun c hc => h c (by simp [hc]))]
        · simp only [hm, decide_false]
          exact ih (fun c hc => h c (by rw [List.flatten_cons]; exact List.mem_append_right _ hc))
            (fun c hc => hinj c (by rw [List.flatten_cons]; exact List.mem_append_right _ hc)) shape

theorem idxOf_relabel {A : List Axis} {a : Axis} (hinj : ∀ c ∈ A, φ a = φ c → a = c) :
    (A.map φ).idxOf (φ a) = A.idxOf a := by
  induction A with
  | nil => rfl
  | cons c A ih =>
    rw [List.map_cons]
    by_cases h : c = a
    · subst h; simp
    · rw [List.idxOf_cons_ne _ h, List.idxOf_cons_ne _ (fun hc => h (hinj c (by simp) hc.symm).symm),
        ih (fun c hc => hinj c (by simp [hc]))]

theorem mem_relabel {A : List Axis} {a : Axis} (hinj : ∀ c ∈ A, φ a = φ c → a = c) : φ a ∈ A.map φ ↔ a ∈ A := by
  constructor
  · intro h
    obtain ⟨c, hc, hca⟩ := List.mem_map.1 h
    rw [hinj c hc hca.symm]; exact hc
  · exact List.mem_map_of_mem

theorem filter_map_relabel {A : List Axis} {p p' : Axis → Bool} (h : ∀ a ∈ A, p' (φ a) = p a) :
    (A.map φ).filter p' = (A.filter p).map φ := by
  rw [List.filter_map]
  congr 1
  exact List.filter_congr h

theorem any_relabel (φ : Axis → Axis) (L : List (List Axis)) (p : Nat → Bool) :
    (relabel φ L).any (fun g => p g.length) = L.any (fun g => p g.length) := by
  unfold relabel
  rw [List.any_map]
  congr 1
  funext g
  simp

theorem SameUpTo.cooked (h : SameUpTo φ ex ex' kw kw') (wf : ExpandedWF ex) (wf' : ExpandedWF ex') (shape : List Size) :
    cookedOf ex' kw' shape = cookedOf ex kw shape := by
  have hL : ∀ {a}, a ∈ ex.left.flatten → a ∈ ex.left.flatten ++ ex.rght.flatten := List.mem_append_left _
  have hR : ∀ {a}, a ∈ ex.rght.flatten → a ∈ ex.left.flatten ++ ex.rght.flatten := List.mem_append_right _
  have fL : ex'.left.flatten = ex.left.flatten.map φ := by rw [h.left, flatten_relabel]
  have fR : ex'.rght.flatten = ex.rght.flatten.map φ := by rw [h.rght, flatten_relabel]
  have hlen : ∀ a ∈ ex.left.flatten ++ ex.rght.flatten, axisSize kw' ex'.left shape (φ a) = axisSize kw ex.left shape a := by
    intro a ha
    rw [h.left]
    exact axisSize_relabel (h.known a ha) (fun c hc => h.known c (hL hc)) (fun c hc => h.inj a ha c (hL hc)) shape
  have mL : ∀ a ∈ ex.left.flatten ++ ex.rght.flatten, (φ a ∈ ex'.leftIds ↔ a ∈ ex.leftIds) := by
    intro a ha
    rw [wf.leftIds_iff, wf'.leftIds_iff, fL]
    exact mem_relabel (fun c hc => h.inj a ha c (hL hc))
  have mR : ∀ a ∈ ex.left.flatten ++ ex.rght.flatten, (φ a ∈ ex'.rghtIds ↔ a ∈ ex.rghtIds) := by
    intro a ha
    rw [wf.rghtIds_iff, wf'.rghtIds_iff, fR]
    exact mem_relabel (fun c hc => h.inj a ha c (hR hc))
  have hkeep : ex'.rght.flatten.filter (fun a => a ∈ ex'.leftIds) =
      (ex.rght.flatten.filter (fun a => a ∈ ex.leftIds)).map φ := by
    rw [fR]
    exact filter_map_relabel (fun a ha => by simp only [mL a (hR ha)])
  have hdrop : ex'.left.flatten.filter (fun a => a ∉ ex'.rghtIds) =
      (ex.left.flatten.filter (fun a => a ∉ ex.rghtIds)).map φ := by
    rw [fL]
    exact filter_map_relabel (fun a ha => by simp only [mR a (hL ha)])
  have hperm : (ex'.rght.flatten.filter (fun a => a ∈ ex'.leftIds) ++
        ex'.left.flatten.filter (fun a => a ∉ ex'.rghtIds)).map ex'.left.flatten.idxOf =
      (ex.rght.flatten.filter (fun a => a ∈ ex.leftIds) ++
        ex.left.flatten.filter (fun a => a ∉ ex.rghtIds)).map ex.left.flatten.idxOf := by
    rw [hkeep, hdrop, ← List.map_append, List.map_map, fL]
    apply List.map_congr_left
    intro a ha
    refine idxOf_relabel (fun c hc => h.inj a ?_ c (hL hc))
    rcases List.mem_append.1 ha with ha | ha
    · exact hR (List.mem_of_mem_filter ha)
    · exact hL (List.mem_of_mem_filter ha)
  have hadded : (ex'.rght.flatten.zipIdx.filter (fun p => p.1 ∉ ex'.leftIds)).map
        (fun p => (p.2, axisSize kw' ex'.left shape p.1)) =
      (ex.rght.flatten.zipIdx.filter (fun p => p.1 ∉ ex.leftIds)).map (fun p => (p.2, axisSize kw ex.left shape p.1)) := by
    rw [fR, List.zipIdx_map, List.filter_map, List.map_map]
    have hmem : ∀ p ∈ ex.rght.flatten.zipIdx, p.1 ∈ ex.rght.flatten := fun p hp => List.fst_mem_of_mem_zipIdx hp
    rw [List.filter_congr (q := fun p => decide (p.1 ∉ ex.leftIds)) (fun p hp => by
      simp only [Function.comp, Prod.map, mL p.1 (hR (hmem p hp))])]
    apply List.map_congr_left
    intro p hp
    have hp' := hmem p (List.mem_of_mem_filter hp)
    simp only [Function.comp, Prod.map, id, hlen p.1 (hR hp')]
  have hinit : ex'.left.flatten.map (axisSize kw' ex'.left shape) = ex.left.flatten.map (axisSize kw ex.left shape) := by
    rw [fL, List.map_map]
    exact List.map_congr_left (fun a ha => hlen a (hL ha))
  have hfin : ex'.rght.map (fun g => sizeProd (g.map (axisSize kw' ex'.left shape))) =
      ex.rght.map (fun g => sizeProd (g.map (axisSize kw ex.left shape))) := by
    conv_lhs => rw [h.rght]
    unfold relabel
    rw [List.map_map]
    apply List.map_congr_left
    intro g hg
    simp only [Function.comp, List.map_map]
    congr 1
    exact List.map_congr_left (fun a ha => hlen a (hR (List.mem_flatten.2 ⟨g, hg, ha⟩)))
  have aL : ex'.left.any (fun g => decide (g.length ≠ 1)) = ex.left.any (fun g => decide (g.length ≠ 1)) := by
    rw [h.left]; exact any_relabel φ ex.left (fun k => decide (k ≠ 1))
  have aR : ex'.rght.any (fun g => decide (g.length ≠ 1)) = ex.rght.any (fun g => decide (g.length ≠ 1)) := by
    rw [h.rght]; exact any_relabel φ ex.rght (fun k => decide (k ≠ 1))
  have hkl : (ex'.rght.flatten.filter (fun a => a ∈ ex'.leftIds)).length =
      (ex.rght.flatten.filter (fun a => a ∈ ex.leftIds)).length := by rw [hkeep, List.length_map]
  unfold cookedOf
  simp only
  rw [aL, aR, hinit, hfin, hperm, hadded, hkl]

theorem SameUpTo.run (h : SameUpTo φ ex ex' kw kw') (wf : ExpandedWF ex) (wf' : ExpandedWF ex') (b : Backend α)
    (x : Tensor α) (red : Reduction α) : runEx b ex' kw' x red = runEx b ex kw x red := by
  unfold runEx
  rw [h.cooked wf wf']
  conv_lhs => rw [h.left, firstErr_relabel (fun a ha => h.known a (List.mem_append_left _ ha))]

theorem SameUpTo.oneUnknown (h : SameUpTo φ ex ex' kw kw') :
    OneUnknown ex'.left (kw'.map Prod.fst) ↔ OneUnknown ex.left (kw.map Prod.fst) := by
  have key : ∀ g ∈ ex.left, ((g.map φ).filter (fun a => !isKnown (kw'.map Prod.fst) a)).length =
      (g.filter (fun a => !isKnown (kw.map Prod.fst) a)).length := by
    intro g hg
    rw [filter_map_relabel (p := fun a => !isKnown (kw.map Prod.fst) a), List.length_map]
    intro a ha
    rw [isKnown_relabel (h.known a (List.mem_append_left _ (List.mem_flatten.2 ⟨g, hg, ha⟩)))]
  unfold OneUnknown
  rw [h.left]
  unfold relabel
  constructor
  · intro hh g hg
    rw [← key g hg]
    exact hh _ (List.mem_map_of_mem hg)
  · intro hh g hg
    obtain ⟨g', hg', rfl⟩ := List.mem_map.1 hg
    rw [key g' hg']
    exact hh g' hg'

end

variable [PyUnicode]

/-- the checks that depend on words only -/
def WordsOK (op : OpKind) (GL GR : List Elem) (names : List Str) : Prop :=
  SidesOK op GL GR names ∧ KeywordsUsed GL GR names

open Classical in
/-- the outcome of a call whose pattern has two legal sides -/
theorem reduce_sides (b : Backend α) (so : SetOrder) (x : Tensor α) {pattern : Str} {GL GR : List Elem}
    (hp : IsPattern pattern GL GR) (red : Reduction α) {kw : List (Str × Size)} (hnd : (kw.map Prod.fst).Nodup) :
    reduce b so (.one x) pattern red kw =
      if WordsOK red.kind GL GR (kw.map Prod.fst) then
        (match ellCount GL x.ndim with
          | none => .error .einops
          | some n => if OneUnknown (exOf GL GR n).left (kw.map Prod.fst) then runEx b (exOf GL GR n) kw x red
              else .error .einops)
      else .error .einops := by
  obtain ⟨_, l, r, _, hL, hR⟩ := isPattern_split hp
  simp only [reduce, resolveInput]
  rw [prepare_pattern hp]
  by_cases hs : SidesOK red.kind GL GR (kw.map Prod.fst)
  swap
  · rw [if_neg hs, if_neg (fun h => hs h.1)]
  rw [if_pos hs]
  rcases hc : ellCount GL x.ndim with _ | n
  · simp
  have hwf := exOf_wf hL hR n
  simp only
  by_cases hk : KeywordsUsed GL GR (kw.map Prod.fst)
  swap
  · rw [if_neg (fun h => hk h.2), (buildRecipe_eq so _ hwf _).2 (fun h => hk ((namesOK_iff hL hR n _).1 h.1))]
  rw [if_pos ⟨hs, hk⟩]
  by_cases ho : OneUnknown (exOf GL GR n).left (kw.map Prod.fst)
  swap
  · rw [if_neg ho, (buildRecipe_eq so _ hwf _).2 (fun h => ho h.2)]
  have hn := (namesOK_iff hL hR n _).2 hk
  obtain ⟨_, _, _, _, hlen⟩ := (groups_iff hL (sidesOK_ellipsis hs) x.ndim _ _).2 ⟨n, hc, rfl, rfl⟩
  rw [if_pos ho, (buildRecipe_eq so _ hwf _).1 ⟨hn, ho⟩]
  simp only [applyRecipe]
  rw [reconstruct_recipeOf so _ hwf kw (x.shape.map Size.ofNat) hnd hn ho (by simp [hlen, Tensor.ndim])]
  unfold runEx
  cases firstErr kw (exOf GL GR n).left (x.shape.map Size.ofNat) <;> rfl

/-- Two calls with the same outcome of the word checks whose sides differ by labels have the same outcome. -/
theorem reduce_transfer {x : Tensor α} {pattern pattern' : Str} {GL GR GL' GR' : List Elem}
    (hp : IsPattern pattern GL GR) (hp' : IsPattern pattern' GL' GR') (red : Reduction α)
    {kw kw' : List (Str × Size)} (hnd : (kw.map Prod.fst).Nodup) (hnd' : (kw'.map Prod.fst).Nodup)
    (hw : WordsOK red.kind GL' GR' (kw'.map Prod.fst) ↔ WordsOK red.kind GL GR (kw.map Prod.fst))
    (hc : WordsOK red.kind GL GR (kw.map Prod.fst) → (ellCount GL x.ndim = none ∧ ellCount GL' x.ndim = none) ∨
      ∃ n n' φ, ellCount GL x.ndim = some n ∧ ellCount GL' x.ndim = some n' ∧
        SameUpTo φ (exOf GL GR n) (exOf GL' GR' n') kw kw') (b : Backend α) (so so' : SetOrder) :
    reduce b so' (.one x) pattern' red kw' = reduce b so (.one x) pattern red kw := by
  obtain ⟨_, l, r, _, hL, hR⟩ := isPattern_split hp
  obtain ⟨_, l', r', _, hL', hR'⟩ := isPattern_split hp'
  rw [reduce_sides b so' x hp' red hnd', reduce_sides b so x hp red hnd]
  by_cases h : WordsOK red.kind GL GR (kw.map Prod.fst)
  swap
  · rw [if_neg h, if_neg (fun h' => h (hw.1 h'))]
  rw [if_pos h, if_pos (hw.2 h)]
  rcases hc h with ⟨h1, h2⟩ | ⟨n, n', φ, h1, h2, h3⟩
  · rw [h1, h2]
  · rw [h1, h2]
    simp only
    rw [h3.run (exOf_wf hL hR n) (exOf_wf hL' hR' n')]
    by_cases ho : OneUnknown (exOf GL GR n).left (kw.map Prod.fst)
    · rw [if_pos ho, if_pos (h3.oneUnknown.2 ho)]
    · rw [if_neg ho, if_neg (fun h' => ho (h3.oneUnknown.1 h'))]

theorem reduce_input (b : Backend α) (t : Input α) {pattern pattern' : Str} {red : Reduction α}
    {kw kw' : List (Str × Size)} {so so' : SetOrder}
    (h : ∀ x, reduce b so' (.one x) pattern' red kw' = reduce b so (.one x) pattern red kw) :
    reduce b so' t pattern' red kw' = reduce b so t pattern red kw := by
  cases hr : resolveInput b t with
  | error e => simp only [reduce, hr]
  | ok x =>
    have := h x
    simp only [reduce, resolveInput] at this
    simp only [reduce, hr]
    exact this

/-- calls that are rejected because of their pattern -/
theorem reduce_no_pattern (b : Backend α) {pattern : Str} (hell : '…' ∉ pattern)
    (hp : ¬ ∃ GL GR, IsPattern pattern GL GR) (x : Tensor α) (red : Reduction α) :
    ∃ e, ∀ kw so, reduce b so (.one x) pattern red kw = .error e := by
  rcases prepare_bad hell hp red.kind [] x.ndim with ⟨h0, _⟩ | ⟨h0, _⟩
  · refine ⟨.einops, fun kw so => ?_⟩
    rcases prepare_bad hell hp red.kind (kw.map Prod.fst) x.ndim with ⟨_, h⟩ | ⟨h1, _⟩
    · simp only [reduce, resolveInput, h so]
    · exact absurd h0 h1
  · refine ⟨.value, fun kw so => ?_⟩
    rcases prepare_bad hell hp red.kind (kw.map Prod.fst) x.ndim with ⟨h1, _⟩ | ⟨_, h⟩
    · exact absurd h1 h0
    · simp only [reduce, resolveInput, h so]

end Einops
