import Verif.Proofs.Relabel
import Verif.Rewriting
import Mathlib.Data.List.Forall2

/-! Rewritten patterns: labels of their axes. -/

namespace Einops

/-- `a'` stands for `a` in the rewritten side: names go along `g`, numbers stay numbers with the same value -/
def Stands (side : Nat) (g : Str → Str) (a a' : Axis) : Prop :=
  (∃ w, a = .str w ∧ a' = .str (g w)) ∨ (∃ i i' v, a = .anon side i v ∧ a' = .anon side i' v)

theorem relabel_of_flatten {φ : Axis → Axis} {L L' : List (List Axis)} (hl : L'.map List.length = L.map List.length)
    (hf : L'.flatten = L.flatten.map φ) : L' = relabel φ L := by
  unfold relabel
  induction L generalizing L' with
  | nil => simpa using hl
  | cons g L ih =>
    rcases L' with _ | ⟨g', L'⟩
    · simp at hl
    · simp only [List.map_cons, List.cons.injEq] at hl
      rw [List.flatten_cons, List.flatten_cons, List.map_append] at hf
      obtain ⟨h1, h2⟩ := List.append_inj hf (by simp [hl.1])
      rw [List.map_cons, h1, ih hl.2 h2]

theorem forall₂_lengths {r : Axis → Axis → Prop} {L L' : List (List Axis)} (h : List.Forall₂ (List.Forall₂ r) L L') :
    L'.map List.length = L.map List.length := by
  induction h with
  | nil => rfl
  | cons h1 _ ih => simp [ih, h1.length_eq]

/-- a relabelling from a correspondence of axes -/
theorem exists_relabel {g : Str → Str} {L R L' R' : List (List Axis)}
    (hL : List.Forall₂ (List.Forall₂ (Stands 0 g)) L L') (hR : List.Forall₂ (List.Forall₂ (Stands 1 g)) R R')
    (nL : L.flatten.Nodup) (nR : R.flatten.Nodup) (nL' : L'.flatten.Nodup) (nR' : R'.flatten.Nodup)
    (hg : ∀ w v, Axis.str w ∈ L.flatten ++ R.flatten → Axis.str v ∈ L.flatten ++ R.flatten → g w = g v → w = v) :
    ∃ φ : Axis → Axis, L' = relabel φ L ∧ R' = relabel φ R ∧
      (∀ a ∈ L.flatten ++ R.flatten, ∀ c ∈ L.flatten ++ R.flatten, φ a = φ c → a = c) ∧
      (∀ w, φ (.str w) = .str (g w)) ∧
      ∀ s i v, Axis.anon s i v ∈ L.flatten ++ R.flatten → ∃ i', φ (.anon s i v) = .anon s i' v := by
  have fL : List.Forall₂ (Stands 0 g) L.flatten L'.flatten := List.rel_flatten hL
  have fR : List.Forall₂ (Stands 1 g) R.flatten R'.flatten := List.rel_flatten hR
  have lL := fL.length_eq
  have lR := fR.length_eq
  have gL : ∀ i (h : i < L.flatten.length), Stands 0 g L.flatten[i] (L'.flatten[i]'(lL ▸ h)) := fun i h => fL.get h (lL ▸ h)
  have gR : ∀ i (h : i < R.flatten.length), Stands 1 g R.flatten[i] (R'.flatten[i]'(lR ▸ h)) := fun i h => fR.get h (lR ▸ h)
  let φ : Axis → Axis := fun a => match a with
    | .str w => .str (g w)
    | .anon s i v => if s = 0 then (L'.flatten[L.flatten.idxOf (.anon s i v)]?).getD a
        else (R'.flatten[R.flatten.idxOf (.anon s i v)]?).getD a
  have pL : ∀ i (h : i < L.flatten.length), L'.flatten[i]'(lL ▸ h) = φ L.flatten[i] := by
    intro i h
    rcases gL i h with ⟨w, h1, h2⟩ | ⟨j, j', v, h1, h2⟩
    · rw [h1, h2]
    · have : L.flatten.idxOf (Axis.anon 0 j v) = i := by rw [← h1]; exact nL.idxOf_getElem i h
      rw [h1]
      simp only [φ, if_true, this, List.getElem?_eq_getElem (lL ▸ h), Option.getD_some]
  have pR : ∀ i (h : i < R.flatten.length), R'.flatten[i]'(lR ▸ h) = φ R.flatten[i] := by
    intro i h
    rcases gR i h with ⟨w, h1, h2⟩ | ⟨j, j', v, h1, h2⟩
    · rw [h1, h2]
    · have : R.flatten.idxOf (Axis.anon 1 j v) = i := by rw [← h1]; exact nR.idxOf_getElem i h
      rw [h1]
      simp only [φ, this, List.getElem?_eq_getElem (lR ▸ h), Option.getD_some]
      rfl
  have mL : L'.flatten = L.flatten.map φ := by
    apply List.ext_getElem (by rw [List.length_map, lL])
    intro i h1 h2
    rw [List.getElem_map]
    exact pL i (by rwa [List.length_map] at h2)
  have mR : R'.flatten = R.flatten.map φ := by
    apply List.ext_getElem (by rw [List.length_map, lR])
    intro i h1 h2
    rw [List.getElem_map]
    exact pR i (by rwa [List.length_map] at h2)
  -- what `φ` does
  have sL : ∀ a ∈ L.flatten, Stands 0 g a (φ a) := by
    intro a ha
    obtain ⟨i, hi, rfl⟩ := List.getElem_of_mem ha
    rw [← pL i hi]; exact gL i hi
  have sR : ∀ a ∈ R.flatten, Stands 1 g a (φ a) := by
    intro a ha
    obtain ⟨i, hi, rfl⟩ := List.getElem_of_mem ha
    rw [← pR i hi]; exact gR i hi
  have iL : ∀ a ∈ L.flatten, ∀ c ∈ L.flatten, φ a = φ c → a = c := by
    rw [mL] at nL'
    exact fun a ha c hc h => List.inj_on_of_nodup_map nL' ha hc h
  have iR : ∀ a ∈ R.flatten, ∀ c ∈ R.flatten, φ a = φ c → a = c := by
    rw [mR] at nR'
    exact fun a ha c hc h => List.inj_on_of_nodup_map nR' ha hc h
  have cross : ∀ a ∈ L.flatten, ∀ c ∈ R.flatten, φ a = φ c → a = c := by
    intro a ha c hc h
    rcases sL a ha with ⟨w, h1, h2⟩ | ⟨i, i', v, h1, h2⟩
    · rcases sR c hc with ⟨w', h3, h4⟩ | ⟨j, j', v', h3, h4⟩
      · rw [h2, h4] at h
        simp only [Axis.str.injEq] at h
        subst h1 h3
        rw [hg w w' (List.mem_append_left _ ha) (List.mem_append_right _ hc) h]
      · rw [h2, h4] at h; cases h
    · rcases sR c hc with ⟨w', h3, h4⟩ | ⟨j, j', v', h3, h4⟩
      · rw [h2, h4] at h; cases h
      · rw [h2, h4] at h; simp at h
  refine ⟨φ, relabel_of_flatten (forall₂_lengths hL) mL, relabel_of_flatten (forall₂_lengths hR) mR, ?_, fun w => rfl, ?_⟩
  · intro a ha c hc h
    rcases List.mem_append.1 ha with ha | ha <;> rcases List.mem_append.1 hc with hc | hc
    · exact iL a ha c hc h
    · exact cross a ha c hc h
    · exact (cross c hc a ha h.symm).symm
    · exact iR a ha c hc h
  · intro s i v ha
    rcases List.mem_append.1 ha with ha | ha
    · rcases sL _ ha with ⟨w, h1, h2⟩ | ⟨j, j', v', h1, h2⟩
      · cases h1
      · rw [h2]; cases h1; exact ⟨j', rfl⟩
    · rcases sR _ ha with ⟨w, h1, h2⟩ | ⟨j, j', v', h1, h2⟩
      · cases h1
      · rw [h2]; cases h1; exact ⟨j', rfl⟩

section
variable [PyUnicode]

/-- `SameUpTo` from a correspondence of axes -/
theorem sameUpTo_of_stands {g : Str → Str} {l r l' r' : Str} {GL GR GL' GR' : List Elem}
    (hGL : IsSide false false l GL) (hGR : IsSide false false r GR)
    (hGL' : IsSide false false l' GL') (hGR' : IsSide false false r' GR') {n n' : Nat} {kw kw' : List (Str × Size)}
    (hL : List.Forall₂ (List.Forall₂ (Stands 0 g)) (exOf GL GR n).left (exOf GL' GR' n').left)
    (hR : List.Forall₂ (List.Forall₂ (Stands 1 g)) (exOf GL GR n).rght (exOf GL' GR' n').rght)
    (hg : ∀ w v, Axis.str w ∈ (exOf GL GR n).left.flatten ++ (exOf GL GR n).rght.flatten →
      Axis.str v ∈ (exOf GL GR n).left.flatten ++ (exOf GL GR n).rght.flatten → g w = g v → w = v)
    (hk : ∀ w, Axis.str w ∈ (exOf GL GR n).left.flatten ++ (exOf GL GR n).rght.flatten →
      dictGet kw' (g w) = dictGet kw w) :
    ∃ φ, SameUpTo φ (exOf GL GR n) (exOf GL' GR' n') kw kw' := by
  obtain ⟨φ, h1, h2, h3, h4, h5⟩ := exists_relabel hL hR (exOf_wf hGL hGR n).left_nodup (exOf_wf hGL hGR n).rght_nodup
    (exOf_wf hGL' hGR' n').left_nodup (exOf_wf hGL' hGR' n').rght_nodup hg
  refine ⟨φ, h1, h2, h3, fun a ha => ?_⟩
  cases a with
  | str w => rw [h4]; exact hk w ha
  | anon s i v =>
    obtain ⟨i', h6⟩ := h5 s i v ha
    rw [h6]; rfl

/-- a name occurring as an axis: a word of a side or an axis of the ellipsis -/
theorem str_mem_exOf {GL GR : List Elem} {n : Nat} {w : Str}
    (h : Axis.str w ∈ (exOf GL GR n).left.flatten ++ (exOf GL GR n).rght.flatten) :
    (Axis.str w ∈ ellAxes n ∧ (dots ∈ sideWords GL ∨ dots ∈ sideWords GR ∨ ellipsisStr ∈ sideWords GL ++ sideWords GR)) ∨
      (w ∈ sideWords GL ++ sideWords GR ∧ w ≠ dots ∧ ¬ IsNumber w) := by
  have key : ∀ {side : Nat} {G : List Elem}, Axis.str w ∈ (spread (ellAxes n) (denote side 0 G)).flatten →
      (Axis.str w ∈ ellAxes n ∧ (dots ∈ sideWords G ∨ ellipsisStr ∈ sideWords G)) ∨
        (w ∈ sideWords G ∧ w ≠ dots ∧ ¬ IsNumber w) := by
    intro side G h
    rw [flatten_spread, mem_flatMap_subEll] at h
    rcases h with ⟨h1, h2⟩ | ⟨h1, h2⟩
    · right
      obtain ⟨v, hv, ⟨h3, h4⟩ | ⟨h3, h4, h5⟩⟩ := str_mem_wordsAxes.1 h1
      · exact absurd (by rw [h4]) h2
      · rw [h5]; exact ⟨hv, h3, h4⟩
    · left
      obtain ⟨v, hv, ⟨h3, h4⟩ | ⟨h3, h4, h5⟩⟩ := str_mem_wordsAxes.1 h2
      · exact ⟨h1, .inl (h3 ▸ hv)⟩
      · exact ⟨h1, .inr (h5 ▸ hv)⟩
  rcases List.mem_append.1 h with h | h
  · rcases key h with ⟨h1, h2 | h2⟩ | ⟨h1, h2⟩
    · exact .inl ⟨h1, .inl h2⟩
    · exact .inl ⟨h1, .inr (.inr (List.mem_append_left _ h2))⟩
    · exact .inr ⟨List.mem_append_left _ h1, h2⟩
  · rcases key h with ⟨h1, h2 | h2⟩ | ⟨h1, h2⟩
    · exact .inl ⟨h1, .inr (.inl h2)⟩
    · exact .inl ⟨h1, .inr (.inr (List.mem_append_right _ h2))⟩
    · exact .inr ⟨List.mem_append_right _ h1, h2⟩

/-! ### order of keywords -/

omit [PyUnicode] in
theorem dictGet_perm {β : Type} {kw kw' : List (Str × β)} (h : kw.Perm kw') (hn : (kw.map Prod.fst).Nodup) (w : Str) :
    dictGet kw' w = dictGet kw w := by
  induction h with
  | nil => rfl
  | cons p h ih =>
    obtain ⟨k, v⟩ := p
    simp only [List.map_cons, List.nodup_cons] at hn
    simp only [dictGet]
    rw [ih hn.2]
  | swap p q l =>
    obtain ⟨k, v⟩ := p
    obtain ⟨k', v'⟩ := q
    simp only [List.map_cons, List.nodup_cons, List.mem_cons, not_or] at hn
    simp only [dictGet]
    by_cases h1 : k = w <;> by_cases h2 : k' = w
    · exact absurd (h2.trans h1.symm) hn.1.1
    · simp [h1, h2]
    · simp [h1, h2]
    · simp [h1, h2]
  | trans h1 h2 ih1 ih2 =>
    rw [ih2 ((h1.map Prod.fst).nodup_iff.1 hn), ih1 hn]

theorem wordsOK_names {op : OpKind} {GL GR : List Elem} {names names' : List Str} (h : ∀ w, w ∈ names' ↔ w ∈ names) :
    WordsOK op GL GR names' ↔ WordsOK op GL GR names := by
  have h1 : KeywordsUsed GL GR names' ↔ KeywordsUsed GL GR names := by
    unfold KeywordsUsed
    exact forall_congr' fun w => by rw [h w]
  have h2 : RepeatSides GL GR names' ↔ RepeatSides GL GR names := by
    constructor
    · rintro ⟨a, b, c, d⟩; exact ⟨a, b, c, fun w hw hn => (d w hw hn).imp id (h w).1⟩
    · rintro ⟨a, b, c, d⟩; exact ⟨a, b, c, fun w hw hn => (d w hw hn).imp id (h w).2⟩
  unfold WordsOK SidesOK
  rw [h1, h2]

universe u
variable {α : Type u}

theorem reduce_kw_perm {pattern : Str} (hell : '…' ∉ pattern) {kw kw' : List (Str × Size)} (h : kw.Perm kw')
    (hn : (kw.map Prod.fst).Nodup) (b : Backend α) (x : Tensor α) (red : Reduction α) (so so' : SetOrder) :
    reduce b so' (.one x) pattern red kw' = reduce b so (.one x) pattern red kw := by
  by_cases hp : ∃ GL GR, IsPattern pattern GL GR
  · obtain ⟨GL, GR, hp⟩ := hp
    refine reduce_transfer hp hp red hn ((h.map Prod.fst).nodup_iff.1 hn)
      (wordsOK_names (fun w => (h.map Prod.fst).mem_iff.symm)) (fun _ => ?_) b so so'
    rcases hc : ellCount GL x.ndim with _ | n
    · exact .inl ⟨rfl, rfl⟩
    · refine .inr ⟨n, n, id, rfl, rfl, by simp [relabel], by simp [relabel], fun a _ c _ h => h, fun a _ => ?_⟩
      cases a with
      | anon => rfl
      | str w => exact dictGet_perm h hn w
  · obtain ⟨e, he⟩ := reduce_no_pattern b hell hp x red
    rw [he, he]

/-! ### renaming -/

/-- what is needed of a change of words: it keeps the kind of a word and identifies no two words -/
structure KeepsWords (f : Str → Str) (S : List Str) : Prop where
  dots : f dots = dots
  number : ∀ w ∈ S, IsNumber w → f w = w
  name : ∀ w ∈ S, IsName false w → IsName false (f w)
  other : ∀ w ∈ S, ¬ IsName false w → f w = w
  inj : ∀ w ∈ S, ∀ v ∈ S, f w = f v → w = v

section
variable {f : Str → Str} {S : List Str} (hf : KeepsWords f S)

omit [PyUnicode] in
theorem sideWords_map (f : Str → Str) (G : List Elem) : sideWords (G.map (Elem.mapWords f)) = (sideWords G).map f := by
  unfold sideWords
  rw [List.flatMap_map, List.map_flatMap]
  congr 1
  funext e
  cases e <;> rfl

include hf in
theorem KeepsWords.dots_iff {w : Str} (hw : w ∈ S) : f w = Einops.dots ↔ w = Einops.dots := by
  constructor
  · intro h
    by_cases hn : IsName false w
    · exact absurd h (isName_ne_dots (hf.name w hw hn))
    · rwa [hf.other w hw hn] at h
  · rintro rfl; exact hf.dots

include hf in
theorem KeepsWords.number_iff {w : Str} (hw : w ∈ S) : IsNumber (f w) ↔ IsNumber w := by
  constructor
  · intro h
    by_cases hn : IsName false w
    · exact absurd h (isName_not_number false (hf.name w hw hn))
    · rwa [hf.other w hw hn] at h
  · intro h; rwa [hf.number w hw h]

include hf in
theorem KeepsWords.name_iff {w : Str} (hw : w ∈ S) : IsName false (f w) ↔ IsName false w := by
  constructor
  · intro h
    by_contra hn
    rw [hf.other w hw hn] at h
    exact hn h
  · exact hf.name w hw

include hf in
theorem KeepsWords.mem_map {A : List Str} (hA : ∀ w ∈ A, w ∈ S) {w : Str} (hw : w ∈ S) : f w ∈ A.map f ↔ w ∈ A := by
  constructor
  · intro h
    obtain ⟨v, hv, hvw⟩ := List.mem_map.1 h
    rw [← hf.inj v (hA v hv) w hw hvw]; exact hv
  · exact List.mem_map_of_mem

include hf in
theorem KeepsWords.dots_mem {A : List Str} (hA : ∀ w ∈ A, w ∈ S) : Einops.dots ∈ A.map f ↔ Einops.dots ∈ A := by
  constructor
  · intro h
    obtain ⟨v, hv, hvw⟩ := List.mem_map.1 h
    rw [← (hf.dots_iff (hA v hv)).1 hvw]; exact hv
  · intro h
    rw [← hf.dots]; exact List.mem_map_of_mem h

include hf in
theorem KeepsWords.onlyUnits {G : List Elem} (hG : ∀ w ∈ sideWords G, w ∈ S) :
    OnlyUnits (G.map (Elem.mapWords f)) ↔ OnlyUnits G := by
  unfold OnlyUnits
  rw [sideWords_map]
  simp only [List.mem_map, forall_exists_index, and_imp, forall_apply_eq_imp_iff₂]
  refine forall₂_congr fun w hw => ?_
  rw [hf.number_iff (hG w hw)]
  exact imp_congr_right fun h => by rw [hf.number w (hG w hw) h]

include hf in
theorem KeepsWords.within {G G' : List Elem} (hG : ∀ w ∈ sideWords G, w ∈ S) (hG' : ∀ w ∈ sideWords G', w ∈ S) :
    NamesWithin (G.map (Elem.mapWords f)) (G'.map (Elem.mapWords f)) ↔ NamesWithin G G' := by
  unfold NamesWithin
  rw [sideWords_map, sideWords_map]
  constructor
  · intro h w hw hn
    exact (hf.mem_map hG' (hG w hw)).1 (h _ (List.mem_map_of_mem hw) (fun h' => hn ((hf.number_iff (hG w hw)).1 h')))
  · intro h v hv hn
    obtain ⟨w, hw, rfl⟩ := List.mem_map.1 hv
    exact List.mem_map_of_mem (h w hw (fun h' => hn ((hf.number_iff (hG w hw)).2 h')))

include hf in
theorem KeepsWords.ellipsisOK {GL GR : List Elem} (hL : ∀ w ∈ sideWords GL, w ∈ S) (hR : ∀ w ∈ sideWords GR, w ∈ S) :
    EllipsisOK (GL.map (Elem.mapWords f)) (GR.map (Elem.mapWords f)) ↔ EllipsisOK GL GR := by
  unfold EllipsisOK
  rw [sideWords_map, sideWords_map, hf.dots_mem hL, hf.dots_mem hR]
  refine and_congr_right fun _ => ?_
  constructor
  · intro h ws hws hd
    refine h (ws.map f) (List.mem_map.2 ⟨_, hws, rfl⟩) ?_
    rw [← hf.dots]; exact List.mem_map_of_mem hd
  · intro h ws hws hd
    obtain ⟨e, he, h1⟩ := List.mem_map.1 hws
    cases e with
    | bare w => cases h1
    | paren vs =>
      simp only [Elem.mapWords, Elem.paren.injEq] at h1
      subst h1
      refine h vs he ((hf.dots_mem (fun w hw => hL w ?_)).1 hd)
      exact List.mem_flatMap.2 ⟨_, he, hw⟩

include hf in
theorem KeepsWords.wordsOK {op : OpKind} {GL GR : List Elem} {names : List Str} (hL : ∀ w ∈ sideWords GL, w ∈ S)
    (hR : ∀ w ∈ sideWords GR, w ∈ S) (hn : ∀ w ∈ names, w ∈ S) :
    WordsOK op (GL.map (Elem.mapWords f)) (GR.map (Elem.mapWords f)) (names.map f) ↔ WordsOK op GL GR names := by
  have h1 : KeywordsUsed (GL.map (Elem.mapWords f)) (GR.map (Elem.mapWords f)) (names.map f) ↔ KeywordsUsed GL GR names := by
    unfold KeywordsUsed
    rw [sideWords_map, sideWords_map, ← List.map_append]
    simp only [List.mem_map (l := names), forall_exists_index, and_imp, forall_apply_eq_imp_iff₂]
    refine forall₂_congr fun w hw => ?_
    rw [hf.name_iff (hn w hw), hf.mem_map (fun v hv => (List.mem_append.1 hv).elim (hL v) (hR v)) (hn w hw)]
  have hE := hf.ellipsisOK hL hR
  have uL := hf.onlyUnits hL
  have uR := hf.onlyUnits hR
  have wLR := hf.within hL hR
  have wRL := hf.within hR hL
  have h2 : RearrangeSides (GL.map (Elem.mapWords f)) (GR.map (Elem.mapWords f)) ↔ RearrangeSides GL GR :=
    ⟨fun ⟨a, b, c, d, e⟩ => ⟨hE.1 a, uL.1 b, uR.1 c, wLR.1 d, wRL.1 e⟩,
      fun ⟨a, b, c, d, e⟩ => ⟨hE.2 a, uL.2 b, uR.2 c, wLR.2 d, wRL.2 e⟩⟩
  have h3 : ReduceSides (GL.map (Elem.mapWords f)) (GR.map (Elem.mapWords f)) ↔ ReduceSides GL GR :=
    ⟨fun ⟨a, b, c⟩ => ⟨hE.1 a, uR.1 b, wRL.1 c⟩, fun ⟨a, b, c⟩ => ⟨hE.2 a, uR.2 b, wRL.2 c⟩⟩
  have h4 : RepeatSides (GL.map (Elem.mapWords f)) (GR.map (Elem.mapWords f)) (names.map f) ↔ RepeatSides GL GR names := by
    have key : (∀ w ∈ sideWords (GR.map (Elem.mapWords f)), ¬ IsNumber w →
          w ∈ sideWords (GL.map (Elem.mapWords f)) ∨ w ∈ names.map f) ↔
        ∀ w ∈ sideWords GR, ¬ IsNumber w → w ∈ sideWords GL ∨ w ∈ names := by
      rw [sideWords_map, sideWords_map]
      simp only [List.mem_map (l := sideWords GR), forall_exists_index, and_imp, forall_apply_eq_imp_iff₂]
      refine forall₂_congr fun w hw => ?_
      rw [hf.number_iff (hR w hw), hf.mem_map hL (hR w hw), hf.mem_map hn (hR w hw)]
    exact ⟨fun ⟨a, b, c, d⟩ => ⟨hE.1 a, uL.1 b, wLR.1 c, key.1 d⟩, fun ⟨a, b, c, d⟩ => ⟨hE.2 a, uL.2 b, wLR.2 c, key.2 d⟩⟩
  unfold WordsOK SidesOK
  rw [h1, h2, h3, h4]

/-- names inside axes: words are changed, axes of the ellipsis are not -/
def axisName (f : Str → Str) (w : Str) : Str := if '…' ∈ w then w else f w

include hf in
theorem KeepsWords.wordAxes {side k k' : Nat} {w : Str} (hw : w ∈ S) (he : '…' ∉ w) :
    List.Forall₂ (Stands side (axisName f)) (Einops.wordAxes side k w) (Einops.wordAxes side k' (f w)) := by
  unfold Einops.wordAxes
  by_cases h1 : w = Einops.dots
  · rw [if_pos h1, if_pos ((hf.dots_iff hw).2 h1)]
    exact .cons (.inl ⟨_, rfl, by simp [axisName, ellipsisStr]⟩) .nil
  rw [if_neg h1, if_neg (fun h => h1 ((hf.dots_iff hw).1 h))]
  by_cases h2 : IsNumber w
  · rw [if_pos h2, if_pos ((hf.number_iff hw).2 h2), hf.number w hw h2]
    split
    · exact .nil
    · exact .cons (.inr ⟨_, _, _, rfl, rfl⟩) .nil
  · rw [if_neg h2, if_neg (fun h => h2 ((hf.number_iff hw).1 h))]
    exact .cons (.inl ⟨_, rfl, by simp [axisName, he]⟩) .nil

include hf in
theorem KeepsWords.wordsAxes {side k k' : Nat} {ws : List Str} (hw : ∀ w ∈ ws, w ∈ S) (he : ∀ w ∈ ws, '…' ∉ w) :
    List.Forall₂ (Stands side (axisName f)) (Einops.wordsAxes side k ws) (Einops.wordsAxes side k' (ws.map f)) := by
  induction ws generalizing k k' with
  | nil => exact .nil
  | cons w ws ih =>
    simp only [Einops.wordsAxes, List.map_cons]
    exact List.rel_append (hf.wordAxes (hw w (by simp)) (he w (by simp)))
      (ih (fun v hv => hw v (by simp [hv])) (fun v hv => he v (by simp [hv])))

omit [PyUnicode] in
/-- replacing the marker on both sides -/
theorem stands_sub {side : Nat} {g : Str → Str} {ell ell' : List Axis} (hell : List.Forall₂ (Stands side g) ell ell')
    (hm : ∀ w, g w = ellipsisStr ↔ w = ellipsisStr) {A A' : List Axis} (h : List.Forall₂ (Stands side g) A A') :
    List.Forall₂ (Stands side g) (A.flatMap (fun a => if a = .str ellipsisStr then ell else [a]))
      (A'.flatMap (fun a => if a = .str ellipsisStr then ell' else [a])) := by
  induction h with
  | nil => exact .nil
  | cons h _ ih =>
    simp only [List.flatMap_cons]
    refine List.rel_append ?_ ih
    rcases h with ⟨w, rfl, rfl⟩ | ⟨i, i', v, rfl, rfl⟩
    · simp only [Axis.str.injEq, hm]
      by_cases hw : w = ellipsisStr
      · rw [if_pos hw, if_pos hw]; exact hell
      · rw [if_neg hw, if_neg hw]
        exact .cons (.inl ⟨_, rfl, rfl⟩) .nil
    · rw [if_neg (by simp), if_neg (by simp)]
      exact .cons (.inr ⟨_, _, _, rfl, rfl⟩) .nil

omit [PyUnicode] in
theorem stands_singletons {side : Nat} {g : Str → Str} {ell ell' : List Axis} (h : List.Forall₂ (Stands side g) ell ell') :
    List.Forall₂ (List.Forall₂ (Stands side g)) (ell.map (fun a => [a])) (ell'.map (fun a => [a])) := by
  induction h with
  | nil => exact .nil
  | cons h _ ih => exact .cons (.cons h .nil) ih

omit [PyUnicode] in
theorem stands_ellAxes (side n : Nat) (f : Str → Str) : List.Forall₂ (Stands side (axisName f)) (ellAxes n) (ellAxes n) := by
  rw [List.forall₂_same]
  intro a ha
  obtain ⟨i, _, rfl⟩ := mem_ellAxes.1 ha
  exact .inl ⟨_, rfl, by simp [axisName, ellipsisStr]⟩

include hf in
theorem KeepsWords.stands {side k k' n : Nat} {G : List Elem} (hw : ∀ w ∈ sideWords G, w ∈ S)
    (he : ∀ w ∈ sideWords G, '…' ∉ w) (hm : ∀ w, axisName f w = ellipsisStr ↔ w = ellipsisStr) :
    List.Forall₂ (List.Forall₂ (Stands side (axisName f))) (spread (ellAxes n) (denote side k G))
      (spread (ellAxes n) (denote side k' (G.map (Elem.mapWords f)))) := by
  induction G generalizing k k' with
  | nil => exact .nil
  | cons e G ih =>
    have hw' : ∀ w ∈ sideWords G, w ∈ S := fun w h => hw w (by simp only [sideWords, List.flatMap_cons, List.mem_append]; exact .inr h)
    have he' : ∀ w ∈ sideWords G, '…' ∉ w := fun w h => he w (by simp only [sideWords, List.flatMap_cons, List.mem_append]; exact .inr h)
    cases e with
    | bare w =>
      have hwS : w ∈ S := hw w (by simp [sideWords, Elem.words])
      have hwe : '…' ∉ w := he w (by simp [sideWords, Elem.words])
      simp only [List.map_cons, Elem.mapWords, denote, hf.dots_iff hwS]
      by_cases hd : w = Einops.dots
      · rw [if_pos hd, if_pos hd]
        simp only [spread]
        exact List.rel_append (stands_singletons (stands_ellAxes side n f)) (ih hw' he')
      · rw [if_neg hd, if_neg hd]
        simp only [spread]
        exact .cons (stands_sub (stands_ellAxes side n f) hm (hf.wordAxes hwS hwe)) (ih hw' he')
    | paren ws =>
      simp only [List.map_cons, Elem.mapWords, denote, spread]
      refine .cons (stands_sub (stands_ellAxes side n f) hm (hf.wordsAxes (fun w h => hw w ?_) (fun w h => he w ?_))) (ih hw' he')
      · simp [sideWords, Elem.words, h]
      · simp [sideWords, Elem.words, h]

omit [PyUnicode] in
theorem dictGet_mapKeys {β : Type} {kw : List (Str × β)} {w : Str} (h : ∀ p ∈ kw, f p.1 = f w → p.1 = w) :
    dictGet (kw.map (fun p => (f p.1, p.2))) (f w) = dictGet kw w := by
  induction kw with
  | nil => rfl
  | cons p kw ih =>
    obtain ⟨k, v⟩ := p
    simp only [List.map_cons, dictGet]
    rw [ih (fun p hp => h p (by simp [hp]))]
    by_cases hk : k = w
    · simp [hk]
    · rw [if_neg hk, if_neg (fun hc => hk (h (k, v) (by simp) hc))]

omit [PyUnicode] in
theorem dictGet_eq_none {β : Type} {kw : List (Str × β)} {w : Str} (h : w ∉ kw.map Prod.fst) : dictGet kw w = none :=
  dictGet_none.2 h

theorem ellCount_mapWords {GL : List Elem} (hL : ∀ w ∈ sideWords GL, w ∈ S) (hf : KeepsWords f S) (ndim : Nat) :
    ellCount (GL.map (Elem.mapWords f)) ndim = ellCount GL ndim := by
  unfold ellCount
  rw [sideWords_map, List.length_map]
  simp only [hf.dots_mem hL]

end

theorem reduce_rename {pattern pattern' : Str} {GL GR : List Elem} {f : Str → Str} (hp : IsPattern pattern GL GR)
    (hp' : IsPattern pattern' (GL.map (Elem.mapWords f)) (GR.map (Elem.mapWords f))) {kw : List (Str × Size)}
    (hn : (kw.map Prod.fst).Nodup) (hf : KeepsWords f (sideWords GL ++ sideWords GR ++ kw.map Prod.fst))
    (b : Backend α) (x : Tensor α) (red : Reduction α) (so so' : SetOrder) :
    reduce b so' (.one x) pattern' red (kw.map (fun p => (f p.1, p.2))) = reduce b so (.one x) pattern red kw := by
  obtain ⟨_, l, r, _, hL, hR⟩ := isPattern_split hp
  obtain ⟨_, l', r', _, hL', hR'⟩ := isPattern_split hp'
  have sL : ∀ w ∈ sideWords GL, w ∈ sideWords GL ++ sideWords GR ++ kw.map Prod.fst := fun w h => by simp [h]
  have sR : ∀ w ∈ sideWords GR, w ∈ sideWords GL ++ sideWords GR ++ kw.map Prod.fst := fun w h => by simp [h]
  have sK : ∀ w ∈ kw.map Prod.fst, w ∈ sideWords GL ++ sideWords GR ++ kw.map Prod.fst := fun w h => List.mem_append_right _ h
  have hfst : (kw.map (fun p => (f p.1, p.2))).map Prod.fst = (kw.map Prod.fst).map f := by
    rw [List.map_map, List.map_map]; rfl
  have hn' : ((kw.map Prod.fst).map f).Nodup := by
    rw [List.nodup_map_iff_inj_on hn]
    exact fun w hw v hv h => hf.inj w (sK w hw) v (sK v hv) h
  refine reduce_transfer hp hp' red hn (by rw [hfst]; exact hn') (by rw [hfst]; exact hf.wordsOK sL sR sK) (fun hw => ?_) b so so'
  rw [ellCount_mapWords sL hf]
  rcases hc : ellCount GL x.ndim with _ | n
  · exact .inl ⟨rfl, rfl⟩
  right
  have eL := side_no_ell hL
  have eR := side_no_ell hR
  -- words are not changed into the marker
  have hfe : ∀ w ∈ sideWords GL ++ sideWords GR, '…' ∉ f w := by
    intro w hw
    rcases List.mem_append.1 hw with hw | hw
    · exact side_no_ell hL' (f w) (by rw [sideWords_map]; exact List.mem_map_of_mem hw)
    · exact side_no_ell hR' (f w) (by rw [sideWords_map]; exact List.mem_map_of_mem hw)
  let g : Str → Str := fun w => if w ∈ sideWords GL ++ sideWords GR ++ kw.map Prod.fst then f w else w
  have hg : KeepsWords g (sideWords GL ++ sideWords GR ++ kw.map Prod.fst) := by
    have e : ∀ w ∈ sideWords GL ++ sideWords GR ++ kw.map Prod.fst, g w = f w := fun w hw => if_pos hw
    refine ⟨?_, ?_, ?_, ?_, ?_⟩
    · by_cases h : dots ∈ sideWords GL ++ sideWords GR ++ kw.map Prod.fst
      · rw [e _ h]; exact hf.dots
      · exact if_neg h
    · intro w hw; rw [e w hw]; exact hf.number w hw
    · intro w hw; rw [e w hw]; exact hf.name w hw
    · intro w hw; rw [e w hw]; exact hf.other w hw
    · intro w hw v hv; rw [e w hw, e v hv]; exact hf.inj w hw v hv
  have hkwe : ∀ w ∈ kw.map Prod.fst, '…' ∉ w ∧ '…' ∉ f w := fun w h => by
    have := (hw.2 w h).1
    exact ⟨isName_no_ell this, isName_no_ell (hf.name w (sK w h) this)⟩
  have hgm : ∀ w, axisName g w = ellipsisStr ↔ w = ellipsisStr := by
    intro w
    unfold axisName
    by_cases h : '…' ∈ w
    · rw [if_pos h]
    · rw [if_neg h]
      constructor
      · intro h'
        exfalso
        have hne : '…' ∉ g w := by
          simp only [g]
          split
          · rename_i hm
            rcases List.mem_append.1 hm with hm | hm
            · exact hfe w hm
            · exact (hkwe w hm).2
          · exact h
        rw [h'] at hne
        exact hne (by simp [ellipsisStr])
      · rintro rfl
        exact absurd (by simp [ellipsisStr]) h
  have hmapg : ∀ G : List Elem, (∀ w ∈ sideWords G, w ∈ sideWords GL ++ sideWords GR ++ kw.map Prod.fst) →
      G.map (Elem.mapWords f) = G.map (Elem.mapWords g) := by
    intro G hG
    apply List.map_congr_left
    intro e he
    cases e with
    | bare w =>
      have := hG w (List.mem_flatMap.2 ⟨_, he, by simp [Elem.words]⟩)
      simp only [Elem.mapWords, g, if_pos this]
    | paren ws =>
      simp only [Elem.mapWords, Elem.paren.injEq]
      apply List.map_congr_left
      intro w hw
      have := hG w (List.mem_flatMap.2 ⟨_, he, hw⟩)
      simp only [g, if_pos this]
  have hdisj : ∀ w, Axis.str w ∈ (exOf GL GR n).left.flatten ++ (exOf GL GR n).rght.flatten →
      ('…' ∈ w ∧ w ∉ kw.map Prod.fst) ∨ ('…' ∉ w ∧ w ∈ sideWords GL ++ sideWords GR) := by
    intro w hm
    rcases str_mem_exOf hm with ⟨h1, _⟩ | ⟨h1, _⟩
    · left
      obtain ⟨i, _, h2⟩ := mem_ellAxes.1 h1
      simp only [Axis.str.injEq] at h2
      have : '…' ∈ w := by rw [h2]; simp [ellipsisStr]
      exact ⟨this, fun h => (hkwe w h).1 this⟩
    · right
      refine ⟨?_, h1⟩
      rcases List.mem_append.1 h1 with h | h
      · exact eL w h
      · exact eR w h
  obtain ⟨φ, hφ⟩ := sameUpTo_of_stands (g := axisName g) (n := n) (n' := n) (kw := kw) (kw' := kw.map (fun p => (f p.1, p.2)))
    hL hR hL' hR' (by
      simp only [exOf]
      rw [hmapg GL sL]
      exact hg.stands sL eL hgm) (by
      simp only [exOf]
      rw [hmapg GR sR]
      exact hg.stands sR eR hgm) (by
      intro w v hw hv h
      have hgne : ∀ u ∈ sideWords GL ++ sideWords GR, '…' ∉ g u := fun u hu => by
        simp only [g]
        rw [if_pos (List.mem_append_left _ hu)]
        exact hfe u hu
      unfold axisName at h
      rcases hdisj w hw with ⟨h1, _⟩ | ⟨h1, h2⟩ <;> rcases hdisj v hv with ⟨h3, _⟩ | ⟨h3, h4⟩
      · rwa [if_pos h1, if_pos h3] at h
      · rw [if_pos h1, if_neg h3] at h
        rw [h] at h1
        exact absurd h1 (hgne v h4)
      · rw [if_neg h1, if_pos h3] at h
        rw [← h] at h3
        exact absurd h3 (hgne w h2)
      · rw [if_neg h1, if_neg h3] at h
        exact hg.inj w (List.mem_append_left _ h2) v (List.mem_append_left _ h4) h) (by
      intro w hw
      unfold axisName
      rcases hdisj w hw with ⟨h1, h2⟩ | ⟨h1, h2⟩
      · rw [if_pos h1, dictGet_eq_none h2, dictGet_eq_none]
        rw [hfst]
        intro hm
        obtain ⟨v, hv, rfl⟩ := List.mem_map.1 hm
        exact (hkwe v hv).2 h1
      · have h3 : w ∈ sideWords GL ++ sideWords GR ++ kw.map Prod.fst := List.mem_append_left _ h2
        rw [if_neg h1]
        simp only [g]
        rw [if_pos h3]
        exact dictGet_mapKeys (fun p hp h => hf.inj p.1 (sK _ (List.mem_map_of_mem hp)) w h3 h))
  exact ⟨n, n, φ, rfl, rfl, hφ⟩

end

end Einops
