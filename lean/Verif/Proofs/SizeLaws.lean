import Verif.Props.Shapes
import Verif.Props.Algebra
import Verif.Proofs.Symbolic

/-! Keyword sizes that could be left out, and sizes from `parse_shape`. -/

namespace Einops

universe u

section
variable {α : Type u} [PyUnicode]

/-! ### The same axes with the same lengths -/

omit [PyUnicode] in
theorem sizeProd_val_congr {l l' : List Size} (h : l.map Size.val = l'.map Size.val) : (sizeProd l).val = (sizeProd l').val := by
  unfold sizeProd
  have : ∀ a a' : Size, a.val = a'.val → (l.foldl Size.mul a).val = (l'.foldl Size.mul a').val := by
    induction l generalizing l' with
    | nil =>
      intro a a' ha
      cases l' with
      | nil => exact ha
      | cons => simp at h
    | cons s l ih =>
      intro a a' ha
      cases l' with
      | nil => simp at h
      | cons s' l' =>
        simp only [List.map_cons, List.cons.injEq] at h
        exact ih h.2 _ _ (by simp only [Size.mul, ha, h.1])
  exact this _ _ rfl

omit [PyUnicode] in
/-- cooked recipes depend on the groups of axes and the values of the lengths only -/
theorem cookedOf_congr {ex ex' : Expanded} (wf : ExpandedWF ex) (wf' : ExpandedWF ex') (hl : ex.left = ex'.left)
    (hr : ex.rght = ex'.rght) {kw kw' : List (Str × Size)} {shape shape' : List Size}
    (hv : ∀ a ∈ ex.left.flatten ++ ex.rght.flatten, (axisSize kw ex.left shape a).val = (axisSize kw' ex'.left shape' a).val) :
    (cookedOf ex kw shape).SameValues (cookedOf ex' kw' shape') := by
  have i1 : ∀ a, a ∈ ex.leftIds ↔ a ∈ ex'.leftIds := fun a => by rw [wf.leftIds_iff, wf'.leftIds_iff, hl]
  have i2 : ∀ a, a ∈ ex.rghtIds ↔ a ∈ ex'.rghtIds := fun a => by rw [wf.rghtIds_iff, wf'.rghtIds_iff, hr]
  have hL : ∀ g : List Axis, (∀ a ∈ g, a ∈ ex.left.flatten ++ ex.rght.flatten) →
      (g.map (axisSize kw ex.left shape)).map Size.val = (g.map (axisSize kw' ex'.left shape')).map Size.val := by
    intro g hg
    rw [List.map_map, List.map_map]
    exact List.map_congr_left (fun a ha => hv a (hg a ha))
  constructor
  · unfold cookedOf
    simp only
    rw [← hl]
    split
    · simp only [Option.map_some, Option.some.injEq]
      have := hL ex.left.flatten (fun a ha => List.mem_append_left _ ha)
      rwa [← hl] at this
    · rfl
  · unfold cookedOf
    simp only [hl, hr, i1, i2]
  · unfold cookedOf
    simp only [hl, hr, i1, i2]
  · unfold cookedOf
    simp only [i1]
    rw [← hr, List.map_map, List.map_map]
    refine List.map_congr_left (fun p hp => ?_)
    have hm := (List.mem_filter.1 hp).1
    obtain ⟨-, -, h3⟩ := List.mem_zipIdx hm
    simp only [Function.comp, Prod.mk.injEq, true_and]
    refine hv _ (List.mem_append_right _ ?_)
    rw [h3]
    exact List.getElem_mem _
  · unfold cookedOf
    simp only
    rw [← hr]
    split
    · simp only [Option.map_some, Option.some.injEq, List.map_map]
      refine List.map_congr_left (fun g hg => ?_)
      exact sizeProd_val_congr (hL g (fun a ha => List.mem_append_right _ (List.mem_flatten.2 ⟨g, hg, ha⟩)))
    · rfl
  · unfold cookedOf
    simp only [hl, hr, i1, i2, List.length_map]

/-- Two legal calls on one tensor that describe the same axes with the same lengths have the same outcome. -/
theorem Accepted.same_outcome {x : Tensor α} {red : Reduction α} {p p' : Str} {kw kw' : List (Str × Size)}
    {GL GR GL' GR' : List Elem} {L R : List (List Axis)} {len len' : AxisMap} (hkw : IntKw kw) (hkw' : IntKw kw')
    (h : Accepted red.kind p kw x.shape GL GR L R len) (h' : Accepted red.kind p' kw' x.shape GL' GR' L R len')
    (hlen : ∀ a ∈ L.flatten ++ R.flatten, len a = len' a) (b : Backend α) (so so' : SetOrder) :
    reduce b so (.one x) p red kw = reduce b so' (.one x) p' red kw' := by
  obtain ⟨ex, wf, h1, h2, h3, h4⟩ := h.run hkw b
  obtain ⟨ex', wf', h1', h2', h3', h4'⟩ := h'.run hkw' b
  rw [h4 so, h4' so']
  refine applyStages_values (cookedOf_congr wf wf' (h1.trans h1'.symm) (h2.trans h2'.symm) ?_) x
  intro a ha
  rw [h3 a ha, h3' a (by rw [h1', h2', ← h1, ← h2]; exact ha), hlen a (by rw [← h1, ← h2]; exact ha)]

omit [PyUnicode] in
theorem isKnown_mono {names names' : List Str} (h : ∀ n ∈ names, n ∈ names') {a : Axis} (ha : isKnown names a = true) :
    isKnown names' a = true := by
  cases a with
  | anon => rfl
  | str n => simp only [isKnown, decide_eq_true_eq] at ha ⊢; exact h n ha

/-- More sizes may be given if they are right. -/
theorem Accepted.more_sizes {op : OpKind} {p : Str} {kw kw' : List (Str × Size)} {shape : List Nat} {GL GR : List Elem}
    {L R : List (List Axis)} {len : AxisMap} (h : Accepted op p kw shape GL GR L R len) (hsub : ∀ q ∈ kw, q ∈ kw')
    (hnew : ∀ n s, (n, s) ∈ kw' → (IsName false n ∧ n ∈ sideWords GL ++ sideWords GR) ∧ (len (.str n) : Int) = s.val) :
    Accepted op p kw' shape GL GR L R len := by
  have hn : ∀ n ∈ kw.map Prod.fst, n ∈ kw'.map Prod.fst := by
    intro n hn
    obtain ⟨q, hq, rfl⟩ := List.mem_map.1 hn
    exact List.mem_map.2 ⟨q, hsub q hq, rfl⟩
  have hle : ∀ g : List Axis, (g.filter fun a => !isKnown (kw'.map Prod.fst) a).length ≤
      (g.filter fun a => !isKnown (kw.map Prod.fst) a).length := by
    intro g
    rw [← List.countP_eq_length_filter, ← List.countP_eq_length_filter]
    refine List.countP_mono_left (fun a _ ha => ?_)
    rw [Bool.not_eq_true'] at ha ⊢
    by_contra hc
    rw [Bool.not_eq_false] at hc
    rw [isKnown_mono hn hc] at ha
    cases ha
  refine ⟨h.pattern, ⟨?_, ?_, h.prepared.groups, fun g hg => (hle g).trans (h.prepared.unknowns g hg)⟩,
    ⟨h.fits.shape_eq, fun n s hs => (hnew n s hs).2, h.fits.number_eq⟩, ?_⟩
  · have hs := h.prepared.sides
    unfold SidesOK at hs ⊢
    split
    · rwa [if_pos (by assumption)] at hs
    · rename_i h1
      rw [if_neg h1] at hs
      split
      · rw [if_pos (by assumption)] at hs
        exact ⟨hs.ellipsis, hs.units_left, hs.left_in_right, fun w hw hx => (hs.new_sized w hw hx).imp id (hn w)⟩
      · rwa [if_neg (by assumption)] at hs
  · intro n hn'
    obtain ⟨⟨n', s⟩, hq, rfl⟩ := List.mem_map.1 hn'
    exact (hnew n' s hq).1
  · intro g hg ⟨a, ha, hu⟩
    have hu' : isKnown (kw.map Prod.fst) a = false := by
      by_contra hc
      rw [Bool.not_eq_false] at hc
      rw [isKnown_mono hn hc] at hu
      cases hu
    have hdet := h.determinate g hg ⟨a, ha, hu'⟩
    -- `a` is the only unknown axis before and after
    have hone := h.prepared.unknowns g hg
    have hsame : ∀ c ∈ g, isKnown (kw'.map Prod.fst) c = isKnown (kw.map Prod.fst) c := by
      intro c hc
      cases hk : isKnown (kw.map Prod.fst) c with
      | true => exact isKnown_mono hn hk
      | false =>
        have hm1 : a ∈ g.filter fun a => !isKnown (kw.map Prod.fst) a := List.mem_filter.2 ⟨ha, by simp [hu']⟩
        have hm2 : c ∈ g.filter fun a => !isKnown (kw.map Prod.fst) a := List.mem_filter.2 ⟨hc, by simp [hk]⟩
        have : c = a := by
          generalize g.filter (fun a => !isKnown (kw.map Prod.fst) a) = l at hone hm1 hm2
          match l, hone with
          | [], _ => simp at hm1
          | [v], _ => rw [List.mem_singleton] at hm1 hm2; rw [hm1, hm2]
        rw [this, hu]
    rwa [List.filter_congr hsame]

/-! ### Sizes from `parse_shape` -/

/-- the group of an element with at most one word other than 1 -/
theorem spread_core {side k : Nat} {e : Elem} {G : List Elem} (ell : List Axis) (hd : dots ∉ e.words) :
    (e.core = [] → spread ell (denote side k (e :: G)) = [] :: spread ell (denote side (k + e.words.length) G)) ∧
    (∀ w, e.core = [w] → IsName false w → spread ell (denote side k (e :: G)) =
      [.str w] :: spread ell (denote side (k + e.words.length) G)) ∧
    (∀ w, e.core = [w] → IsNumber w → ∃ i, spread ell (denote side k (e :: G)) =
      [.anon side i (decimalValue w)] :: spread ell (denote side (k + e.words.length) G)) := by
  obtain ⟨ks, h1, h2⟩ := wordsAxes_core (side := side) (k := k) (ws := e.words)
  have hg : elemAxes side k e = .group (wordsAxes side k e.words) := by
    cases e with
    | bare w =>
      have : w ≠ dots := fun h => hd (by simp [Elem.words, h])
      simp [elemAxes, this, Elem.words, wordsAxes]
    | paren ws => rfl
  rw [denote_cons, hg, spread]
  refine ⟨?_, ?_, ?_⟩
  · intro hc
    unfold Elem.core at hc
    rw [hc] at h2
    rw [h2]
    rfl
  · intro w hc hw
    unfold Elem.core at hc
    rw [hc] at h1 h2
    obtain ⟨i, rfl⟩ := List.length_eq_one_iff.1 h1
    have hne : w ≠ ellipsisStr := fun hc => isName_no_ell hw (by rw [hc]; simp [ellipsisStr])
    rw [h2]
    simp [isName_ne_dots hw, isName_not_number false hw, hne]
  · intro w hc hw
    unfold Elem.core at hc
    rw [hc] at h1 h2
    obtain ⟨i, rfl⟩ := List.length_eq_one_iff.1 h1
    refine ⟨i, ?_⟩
    rw [h2]
    simp [number_ne_dots hw, hw]

theorem core_no_dots {e : Elem} {w : Str} (h : e.core = [w]) (hw : w ≠ dots) : dots ∉ e.words := by
  intro hm
  have : dots ∈ e.core := List.mem_filter.2 ⟨hm, by simp [not_unit_dots]⟩
  rw [h] at this
  exact hw (List.mem_singleton.1 this).symm

theorem core_nil_no_dots {e : Elem} (h : e.core = []) : dots ∉ e.words := by
  intro hm
  have : dots ∈ e.core := List.mem_filter.2 ⟨hm, by simp [not_unit_dots]⟩
  rw [h] at this
  exact nomatch this

/-- an element without ellipsis is one group -/
theorem spread_one (side k : Nat) (e : Elem) (G : List Elem) (ell : List Axis) (hd : dots ∉ e.words) :
    ∃ g, spread ell (denote side k (e :: G)) = g :: spread ell (denote side (k + e.words.length) G) := by
  have hg : elemAxes side k e = .group (wordsAxes side k e.words) := by
    cases e with
    | bare w =>
      have : w ≠ dots := fun h => hd (by simp [Elem.words, h])
      simp [elemAxes, this, Elem.words, wordsAxes]
    | paren ws => rfl
  rw [denote_cons, hg, spread]
  exact ⟨_, rfl⟩

theorem spread_bare_length {G : List Elem} (h : Elem.bare dots ∉ G) (side k : Nat) (ell : List Axis) :
    (spread ell (denote side k G)).length = G.length := by
  induction G generalizing k with
  | nil => rfl
  | cons e G ih =>
    have hG : Elem.bare dots ∉ G := fun hm => h (List.mem_cons_of_mem _ hm)
    cases e with
    | bare w =>
      have : w ≠ dots := fun hc => h (by simp [hc])
      simp [denote, this, spread, ih hG]
    | paren ws => simp [denote, spread, ih hG]

/-- `parse_shape` returns lengths of axes -/
theorem ShapeMatches.lengths {G : List Elem} {s : List Nat} {d : List (Str × Nat)} (h : ShapeMatches G s d)
    (hc : (sideWords G).count dots ≤ 1) {side k : Nat} {ell : List Axis} {len : AxisMap}
    (hs : s = (spread ell (denote side k G)).map (groupSize len)) : ∀ p ∈ d, len (.str p.1) = p.2 := by
  have hcons : ∀ {e : Elem} {G : List Elem}, (sideWords (e :: G)).count dots ≤ 1 → (sideWords G).count dots ≤ 1 := by
    intro e G h
    simp only [sideWords, List.flatMap_cons, List.count_append] at h ⊢
    omega
  induction h generalizing k with
  | nil => simp
  | @name e w G n s d h1 h2 _ ih =>
    rw [(spread_core (side := side) (k := k) (G := G) ell (core_no_dots h1 (isName_ne_dots h2))).2.1 w h1 h2] at hs
    simp only [List.map_cons, List.cons.injEq] at hs
    intro p hp
    rcases List.mem_cons.1 hp with rfl | hp
    · rw [hs.1]; simp [groupSize]
    · exact ih (hcons hc) hs.2 p hp
  | @skip e G n s d h1 _ ih =>
    obtain ⟨g, hg⟩ := spread_one side k e G ell (core_no_dots h1 underscore_ne_dots)
    rw [hg] at hs
    simp only [List.map_cons, List.cons.injEq] at hs
    exact ih (hcons hc) hs.2
  | @unit e G s d h1 _ ih =>
    obtain ⟨g, hg⟩ := spread_one side k e G ell (core_nil_no_dots h1)
    rw [hg] at hs
    simp only [List.map_cons, List.cons.injEq] at hs
    exact ih (hcons hc) hs.2
  | @number e w G s d h1 h2 _ ih =>
    obtain ⟨g, hg⟩ := spread_one side k e G ell (core_no_dots h1 (number_ne_dots h2))
    rw [hg] at hs
    simp only [List.map_cons, List.cons.injEq] at hs
    exact ih (hcons hc) hs.2
  | @ellipsis ds G s d hm ih =>
    have hno : Elem.bare dots ∉ G := by
      intro hx
      have : 0 < (sideWords G).count dots := List.count_pos_iff.2 (List.mem_flatMap.2 ⟨_, hx, by simp [Elem.words]⟩)
      have h2 : (sideWords (Elem.bare dots :: G)).count dots = 1 + (sideWords G).count dots := by
        simp [sideWords, Elem.words]; omega
      omega
    rw [denote, if_pos rfl, spread, List.map_append] at hs
    refine ih (hcons hc) (List.append_inj' hs ?_).2
    rw [List.length_map, spread_bare_length hno, hm.length hno]

/-- the lengths in the result of `parse_shape` determine the shape if there is no ellipsis -/
theorem ShapeMatches.shape {G : List Elem} {s : List Nat} {d : List (Str × Nat)} (h : ShapeMatches G s d)
    (hdots : dots ∉ sideWords G) (hu : ∀ w ∈ sideWords G, w ≠ ['_']) {side k : Nat} {ell : List Axis} {len : AxisMap}
    (hlen : ∀ p ∈ d, len (.str p.1) = p.2)
    (hnum : ∀ i v, Axis.anon side i v ∈ (spread ell (denote side k G)).flatten → len (.anon side i v) = v) :
    s = (spread ell (denote side k G)).map (groupSize len) := by
  have hin : ∀ {e : Elem} {G : List Elem} {w : Str}, w ∈ sideWords G → w ∈ sideWords (e :: G) := by
    intro e G w hw
    simp only [sideWords, List.flatMap_cons, List.mem_append] at hw ⊢
    exact .inr hw
  induction h generalizing k with
  | nil => rfl
  | @name e w G n s d h1 h2 _ ih =>
    rw [(spread_core (side := side) (k := k) (G := G) ell (core_no_dots h1 (isName_ne_dots h2))).2.1 w h1 h2] at hnum ⊢
    rw [List.map_cons, ← ih (fun hm => hdots (hin hm)) (fun w hw => hu w (hin hw))
      (fun p hp => hlen p (List.mem_cons_of_mem _ hp)) (fun i v hm => hnum i v (by
        rw [List.flatten_cons]; exact List.mem_append_right _ hm))]
    have := hlen (w, n) (by simp)
    simp only at this
    simp [groupSize, this]
  | @skip e G n s d h1 _ ih =>
    refine absurd rfl (hu ['_'] ?_)
    simp only [sideWords, List.flatMap_cons, List.mem_append]
    exact .inl (core_mem (by rw [h1]; simp))
  | @unit e G s d h1 _ ih =>
    rw [(spread_core (side := side) (k := k) (G := G) ell (core_nil_no_dots h1)).1 h1] at hnum ⊢
    rw [List.map_cons, ← ih (fun hm => hdots (hin hm)) (fun w hw => hu w (hin hw)) hlen (fun i v hm => hnum i v (by
        rw [List.flatten_cons]; exact List.mem_append_right _ hm))]
    rfl
  | @number e w G s d h1 h2 _ ih =>
    obtain ⟨i, hi⟩ := (spread_core (side := side) (k := k) (G := G) ell (core_no_dots h1 (number_ne_dots h2))).2.2 w h1 h2
    rw [hi] at hnum ⊢
    rw [List.map_cons, ← ih (fun hm => hdots (hin hm)) (fun w hw => hu w (hin hw)) hlen (fun i v hm => hnum i v (by
        rw [List.flatten_cons]; exact List.mem_append_right _ hm))]
    simp [groupSize, hnum i (decimalValue w) (by simp)]
  | @ellipsis ds G s d _ ih =>
    exact absurd (by simp [sideWords, Elem.words]) hdots

/-- every name of the side is in the result of `parse_shape` -/
theorem ShapeMatches.has {G : List Elem} {s : List Nat} {d : List (Str × Nat)} (h : ShapeMatches G s d) {w : Str}
    (hw : IsName false w) (hm : w ∈ sideWords G) : w ∈ d.map Prod.fst := by
  have hcore : ∀ {e : Elem} {G : List Elem}, w ∈ sideWords (e :: G) → w ∈ e.core ∨ w ∈ sideWords G := by
    intro e G hm
    simp only [sideWords, List.flatMap_cons, List.mem_append] at hm ⊢
    refine hm.imp (fun h => List.mem_filter.2 ⟨h, ?_⟩) id
    have : isUnit w = false := by
      cases hu : isUnit w with
      | false => rfl
      | true =>
        unfold isUnit at hu
        exact absurd (by simpa using hu : IsNumber w ∧ _).1 (isName_not_number false hw)
    simp [this]
  induction h with
  | nil => simp [sideWords] at hm
  | name h1 _ _ ih =>
    rcases hcore hm with h | h
    · rw [h1, List.mem_singleton] at h; simp [h]
    · rw [List.map_cons]; exact List.mem_cons_of_mem _ (ih h)
  | skip h1 _ ih =>
    rcases hcore hm with h | h
    · rw [h1, List.mem_singleton] at h; exact absurd (h ▸ hw) underscore_not_name
    · exact ih h
  | unit h1 _ ih =>
    rcases hcore hm with h | h
    · rw [h1] at h; exact nomatch h
    · exact ih h
  | number h1 h2 _ ih =>
    rcases hcore hm with h | h
    · rw [h1, List.mem_singleton] at h; exact absurd (h ▸ h2) (isName_not_number false hw)
    · exact ih h
  | ellipsis _ ih =>
    simp only [sideWords, List.flatMap_cons, List.mem_append, Elem.words, List.mem_singleton] at hm
    exact ih (hm.resolve_left (isName_ne_dots hw))

/-! ### Wrong sizes -/

/-- lengths are determined by the call -/
theorem Accepted.len_unique {op : OpKind} {p : Str} {kw kw' : List (Str × Size)} {shape : List Nat} {GL GR GL' GR' : List Elem}
    {L R L' R' : List (List Axis)} {len len' : AxisMap} (hkw : IntKw kw)
    (h : Accepted op p kw shape GL GR L R len) (h' : Accepted op p kw' shape GL' GR' L' R' len') (hsub : ∀ q ∈ kw, q ∈ kw') :
    L' = L ∧ R' = R ∧ ∀ a ∈ L.flatten ++ R.flatten, len' a = len a := by
  obtain ⟨l, r, rfl, hl, hr⟩ := h.pattern
  obtain ⟨rfl, rfl⟩ := IsPattern.unique hl hr h'.pattern
  obtain ⟨rfl, rfl⟩ := Groups.unique h'.pattern (sidesOK_ellipsis h'.prepared.sides) h'.prepared.groups h.prepared.groups
  refine ⟨rfl, rfl, ?_⟩
  have hk : ∀ a ∈ L'.flatten ++ R'.flatten, isKnown (kw.map Prod.fst) a = true → len' a = len a := by
    intro a ha hk
    cases a with
    | anon t i v => rw [h.fits.number_eq t i v ha, h'.fits.number_eq t i v ha]
    | str n =>
      simp only [isKnown, decide_eq_true_eq] at hk
      obtain ⟨⟨n', s⟩, hq, rfl⟩ := List.mem_map.1 hk
      have h1 := h.fits.kw_eq n' s hq
      have h2 := h'.fits.kw_eq n' s (hsub _ hq)
      simp only
      omega
  have hacc : Accepted op (l ++ ['-', '>'] ++ r) kw shape GL' GR' L' R' len' := by
    refine ⟨h.pattern, h.prepared, ⟨h'.fits.shape_eq, fun n s hq => h'.fits.kw_eq n s (hsub _ hq), h'.fits.number_eq⟩, ?_⟩
    intro g hg hu
    have := h.determinate g hg hu
    rwa [groupSize_congr (len' := len') (fun a ha => (hk a (List.mem_append_left _ (List.mem_flatten.2
      ⟨g, hg, List.mem_of_mem_filter ha⟩)) (List.mem_filter.1 ha).2).symm)] at this
  obtain ⟨ex, _, h1, h2, _, _, h3, _⟩ := h.ex hkw
  obtain ⟨ex', _, h1', h2', _, _, h3', _⟩ := hacc.ex hkw
  intro a ha
  have e1 := h3 a (by rw [h1, h2]; exact ha)
  have e2 := h3' a (by rw [h1', h2']; exact ha)
  rw [h1] at e1
  rw [h1', e1] at e2
  exact_mod_cast e2.symm

/-- named axes of the pattern are axes of the groups -/
theorem Accepted.name_mem {op : OpKind} {p : Str} {kw : List (Str × Size)} {shape : List Nat} {GL GR : List Elem}
    {L R : List (List Axis)} {len : AxisMap} (h : Accepted op p kw shape GL GR L R len) {w : Str} (hw : IsName false w)
    (hm : w ∈ sideWords GL ++ sideWords GR) : Axis.str w ∈ L.flatten ++ R.flatten := by
  obtain ⟨_, l, r, _, hL, hR⟩ := isPattern_split h.pattern
  obtain ⟨n, _, rfl, rfl, _⟩ := h.prepared.groups
  rcases List.mem_append.1 hm with h2 | h2
  · exact List.mem_append_left _ ((name_mem_flatten (side_no_ell hL) (isName_no_ell hw)).2
      ⟨h2, isName_ne_dots hw, isName_not_number false hw⟩)
  · exact List.mem_append_right _ ((name_mem_flatten (side_no_ell hR) (isName_no_ell hw)).2
      ⟨h2, isName_ne_dots hw, isName_not_number false hw⟩)

/-! ### Single dimensions -/

/-- the dimension of a name in a side without ellipsis -/
theorem spread_at {G : List Elem} (hd : dots ∉ sideWords G) {i : Nat} {e : Elem} {w : Str} (he : G[i]? = some e)
    (hc : e.core = [w]) (hw : IsName false w) (side k : Nat) (ell : List Axis) :
    (spread ell (denote side k G))[i]? = some [.str w] := by
  induction G generalizing i k with
  | nil => simp at he
  | cons e' G ih =>
    have h1 : dots ∉ e'.words := fun h => hd (by simp only [sideWords, List.flatMap_cons, List.mem_append]; exact .inl h)
    have h2 : dots ∉ sideWords G := fun h => hd (by
      simp only [sideWords, List.flatMap_cons, List.mem_append] at h ⊢; exact .inr h)
    cases i with
    | zero =>
      simp only [List.getElem?_cons_zero, Option.some.injEq] at he
      subst he
      rw [(spread_core (side := side) (k := k) (G := G) ell h1).2.1 w hc hw]
      rfl
    | succ i =>
      obtain ⟨g, hg⟩ := spread_one side k e' G ell h1
      rw [hg, List.getElem?_cons_succ]
      exact ih h2 (by simpa using he) _

/-- the dimension `parse_shape` reads a name from -/
theorem ShapeMatches.at {G : List Elem} {s : List Nat} {d : List (Str × Nat)} (h : ShapeMatches G s d)
    (hd : dots ∉ sideWords G) {i : Nat} {e : Elem} {w : Str} (he : G[i]? = some e) (hc : e.core = [w])
    (hw : IsName false w) : ∃ n, s[i]? = some n ∧ (w, n) ∈ d := by
  have hin : ∀ {e : Elem} {G : List Elem}, dots ∉ sideWords (e :: G) → dots ∉ sideWords G := by
    intro e G h hm
    refine h ?_
    simp only [sideWords, List.flatMap_cons, List.mem_append] at hm ⊢
    exact .inr hm
  induction h generalizing i with
  | nil => simp at he
  | name h1 h2 _ ih =>
    cases i with
    | zero =>
      simp only [List.getElem?_cons_zero, Option.some.injEq] at he
      subst he
      rw [h1] at hc
      cases hc
      exact ⟨_, rfl, by simp⟩
    | succ i =>
      obtain ⟨n, h3, h4⟩ := ih (hin hd) (by simpa using he)
      exact ⟨n, by simpa using h3, List.mem_cons_of_mem _ h4⟩
  | skip h1 _ ih =>
    cases i with
    | zero =>
      simp only [List.getElem?_cons_zero, Option.some.injEq] at he
      subst he
      rw [h1] at hc
      cases hc
      exact absurd hw underscore_not_name
    | succ i =>
      obtain ⟨n, h3, h4⟩ := ih (hin hd) (by simpa using he)
      exact ⟨n, by simpa using h3, h4⟩
  | unit h1 _ ih =>
    cases i with
    | zero =>
      simp only [List.getElem?_cons_zero, Option.some.injEq] at he
      subst he
      rw [h1] at hc
      cases hc
    | succ i =>
      obtain ⟨n, h3, h4⟩ := ih (hin hd) (by simpa using he)
      exact ⟨n, by simpa using h3, h4⟩
  | number h1 h2 _ ih =>
    cases i with
    | zero =>
      simp only [List.getElem?_cons_zero, Option.some.injEq] at he
      subst he
      rw [h1] at hc
      cases hc
      exact absurd h2 (isName_not_number false hw)
    | succ i =>
      obtain ⟨n, h3, h4⟩ := ih (hin hd) (by simpa using he)
      exact ⟨n, by simpa using h3, h4⟩
  | ellipsis => exact absurd (by simp [sideWords, Elem.words]) hd

/-- keys are read in the order of the pattern -/
theorem ShapeMatches.sublist {G : List Elem} {s : List Nat} {d : List (Str × Nat)} (h : ShapeMatches G s d) :
    (d.map Prod.fst).Sublist (keyWords G) := by
  have hskip : ∀ {e : Elem} {G : List Elem}, (keyWords G).Sublist (keyWords (e :: G)) := by
    intro e G
    unfold keyWords sideWords
    rw [List.flatMap_cons, List.filter_append]
    exact List.sublist_append_right _ _
  induction h with
  | nil => exact List.nil_sublist _
  | @name e w G n s d h1 h2 _ ih =>
    have : [w].Sublist (e.words.filter (unrepeatable true)) := by
      rw [List.singleton_sublist]
      exact List.mem_filter.2 ⟨core_mem (by rw [h1]; simp), name_unrepeatable h2⟩
    have h3 := this.append ih
    unfold keyWords sideWords at h3 ⊢
    rw [List.flatMap_cons, List.filter_append]
    simpa using h3
  | skip _ _ ih => exact ih.trans hskip
  | unit _ _ ih => exact ih.trans hskip
  | number _ _ _ ih => exact ih.trans hskip
  | ellipsis _ ih => exact ih.trans hskip

end

end Einops
