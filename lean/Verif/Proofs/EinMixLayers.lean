import Verif.Proofs.EinMix

/-!
# The rearrange layers inside an `EinMix` layer
-/

namespace Einops

universe u

section
variable [PyUnicode]

/-! ### written-out sides -/

/-- the side that lists the axes one by one -/
def flatSide (G : List Elem) : List Elem := (axisWords G).map Elem.bare

theorem sideWords_flat (G : List Elem) : sideWords (flatSide G) = axisWords G := by
  unfold flatSide sideWords
  induction axisWords G with
  | nil => rfl
  | cons w ws ih => rw [List.map_cons, List.flatMap_cons, ih]; rfl

omit [PyUnicode] in
theorem lexes_join {ws : List Str} (h : ∀ w ∈ ws, w ≠ [] ∧ ∀ c ∈ w, ¬ isSep c) {t : Str} (ht : Lexes t [])
    (hs : ∀ c ∈ t.head?, isSep c) : Lexes (List.intercalate [' '] ws ++ t) (ws.map Tok.word) := by
  induction ws with
  | nil => simpa using ht
  | cons w ws ih =>
    have ih' := ih (fun v hv => h v (by simp [hv]))
    obtain ⟨h1, h2⟩ := h w (by simp)
    cases ws with
    | nil =>
      simp only [List.intercalate_singleton, List.map_cons, List.map_nil]
      exact Lexes.word h1 h2 hs ht
    | cons v ws =>
      rw [List.intercalate_cons_cons, List.append_assoc, List.append_assoc, List.map_cons]
      refine Lexes.word h1 h2 ?_ (Lexes.space ih')
      intro c hc
      simp only [List.cons_append, List.head?_cons, Option.mem_def, Option.some.injEq] at hc
      rw [← hc]
      exact .inr (.inr rfl)

theorem words_lex {u d : Bool} {s : Str} {G : List Elem} (h : IsSide u d s G) : ∀ w ∈ axisWords G, w ≠ [] ∧ ∀ c ∈ w, ¬ isSep c := by
  intro w hw
  have hok := h.words_ok w (mem_axisWords.1 hw).1
  refine ⟨wordOK_ne_nil hok, fun c hc hsep => ?_⟩
  refine wordOK_no_special hok hc ?_
  rcases hsep with rfl | rfl | rfl <;> simp

theorem flat_toks (G : List Elem) : (flatSide G).flatMap Elem.toks = (axisWords G).map Tok.word := by
  unfold flatSide
  induction axisWords G with
  | nil => rfl
  | cons w ws ih => rw [List.map_cons, List.flatMap_cons, ih]; rfl

theorem isSide_flat {s : Str} {G : List Elem} (h : IsSide false false s G) {t : Str}
    (ht : Lexes t ((axisWords G).map Tok.word)) : IsSide false false t (flatSide G) := by
  refine ⟨by rw [flat_toks]; exact ht, ?_, ?_, ?_⟩
  · intro w hw
    rw [show (flatSide G).flatMap Elem.words = axisWords G from sideWords_flat G] at hw
    exact h.words_ok w (mem_axisWords.1 hw).1
  · rw [show (flatSide G).flatMap Elem.words = axisWords G from sideWords_flat G]
    exact (List.Sublist.count_le _ List.filter_sublist).trans h.one_ellipsis
  · intro hd
    rw [show (flatSide G).flatMap Elem.words = axisWords G from sideWords_flat G]
    exact (h.nodup hd).sublist (List.Sublist.filter _ List.filter_sublist)

theorem isSide_flat_left {s : Str} {G : List Elem} (h : IsSide false false s G) :
    IsSide false false (' ' :: List.intercalate [' '] (axisWords G)) (flatSide G) :=
  isSide_flat h (Lexes.space (by simpa using lexes_join (words_lex h) Lexes.nil (by simp)))

theorem isSide_flat_right {s : Str} {G : List Elem} (h : IsSide false false s G) :
    IsSide false false (List.intercalate [' '] (axisWords G) ++ [' ']) (flatSide G) :=
  isSide_flat h (lexes_join (words_lex h) (Lexes.space Lexes.nil) (by simp [isSep]))

theorem dots_flat {G : List Elem} : dots ∈ sideWords (flatSide G) ↔ dots ∈ sideWords G := by
  rw [sideWords_flat, mem_axisWords]
  exact ⟨And.left, fun h => ⟨h, dots_not_number⟩⟩

theorem units_flat (G : List Elem) : OnlyUnits (flatSide G) := by
  intro w hw hn
  rw [sideWords_flat, mem_axisWords] at hw
  exact absurd hn hw.2

omit [PyUnicode] in
theorem no_paren_bare {ws : List Str} {vs : List Str} : Elem.paren vs ∉ ws.map Elem.bare := by simp

theorem sides_pre {GL : List Elem} (h1 : ∀ ws, Elem.paren ws ∈ GL → dots ∉ ws) (h2 : OnlyUnits GL) :
    RearrangeSides GL (flatSide GL) := by
  refine ⟨⟨dots_flat.1, h1⟩, h2, units_flat GL, ?_, ?_⟩
  · intro w hw hn
    rw [sideWords_flat]
    exact mem_axisWords.2 ⟨hw, hn⟩
  · intro w hw _
    rw [sideWords_flat] at hw
    exact (mem_axisWords.1 hw).1

theorem sides_post {GR : List Elem} (h2 : OnlyUnits GR) : RearrangeSides (flatSide GR) GR := by
  refine ⟨⟨dots_flat.2, fun ws hws => absurd hws no_paren_bare⟩, units_flat GR, h2, ?_, ?_⟩
  · intro w hw _
    rw [sideWords_flat] at hw
    exact (mem_axisWords.1 hw).1
  · intro w hw hn
    rw [sideWords_flat]
    exact mem_axisWords.2 ⟨hw, hn⟩

/-! ### when a rearrange layer can be created -/

/-- the number of dimensions of a side without those of the ellipsis -/
def minRank (GL : List Elem) : Nat := if dots ∈ sideWords GL then GL.length - 1 else GL.length

omit [PyUnicode] in
theorem layerRank_min (GL : List Elem) : LayerRank GL (minRank GL) := by
  unfold LayerRank minRank
  split
  · omega
  · rfl

theorem rearrangeLayer_cases {α : Type u} {pat : Str} {GL GR : List Elem} (hp : IsPattern pat GL GR) (so : Nat → SetOrder)
    (kw : List (Str × Size)) :
    ((∃ l : Layer α, rearrangeLayer so pat kw = .ok l) ∧
      ∃ L R, Prepared (.name "rearrange".toList) GL GR (kw.map Prod.fst) (minRank GL) L R) ∨
    ((rearrangeLayer so pat kw : Py (Layer α)) = .error .einops ∧
      ¬ ∃ L R, Prepared (.name "rearrange".toList) GL GR (kw.map Prod.fst) (minRank GL) L R) := by
  have hell := (isPattern_split hp).1
  have hkind : (Reduction.name "rearrange".toList : Reduction α).kind = .name "rearrange".toList := rfl
  unfold rearrangeLayer reduceLayer
  rw [hkind]
  cases hm : prepareAllDims so pat (.name "rearrange".toList) (kw.map Prod.fst) with
  | error e =>
    right
    have h1 := prepareAllDims_error hell hm (so 0) (minRank GL) (fun GL' GR' hp' => by
      rw [← (isPattern_unique hp hp').1]; exact layerRank_min GL)
    rcases prepare_cases hp (.name "rearrange".toList) (kw.map Prod.fst) (minRank GL) with ⟨ex, -, -, -, hok⟩ | ⟨hno, herr⟩
    · rw [hok] at h1; cases h1
    · rw [herr] at h1; cases h1; exact ⟨rfl, hno⟩
  | ok m =>
    left
    refine ⟨⟨_, rfl⟩, ?_⟩
    obtain ⟨r, -, hr⟩ := (prepareAllDims_of hell hp hm).1 _ (layerRank_min GL)
    rcases prepare_cases hp (.name "rearrange".toList) (kw.map Prod.fst) (minRank GL) with ⟨ex, -, hpr, -, -⟩ | ⟨-, herr⟩
    · exact ⟨_, _, hpr⟩
    · rw [herr] at hr; cases hr

theorem prepared_min {GL GR : List Elem} {s : Str} (hl : IsSide false false s GL) (hs : RearrangeSides GL GR) {names : List Str} :
    (∃ L R, Prepared (.name "rearrange".toList) GL GR names (minRank GL) L R) ↔
      KeywordsUsed GL GR names ∧
        ∀ g, CompAxis.group g ∈ GL.map unitComp → (g.filter (fun a => !isKnown names a)).length ≤ 1 := by
  have hng : noGroupEll (denote 0 0 GL) := denote_noGroupEll (side_no_ell hl) hs.ellipsis.2
  constructor
  · rintro ⟨L, R, -, hk, hg, hu⟩
    refine ⟨hk, ?_⟩
    obtain ⟨n, -, rfl, -, -⟩ := hg
    rw [← denote_unitComp (side := 0) (k := 0) hs.units_left]
    exact (oneUnknown_spread hng).1 hu
  · rintro ⟨hk, hu⟩
    refine ⟨_, _, by rw [SidesOK, if_pos rfl]; exact hs, hk,
      (groups_iff hl hs.ellipsis _ _ _).2 ⟨0, ?_, rfl, rfl⟩, ?_⟩
    · unfold ellCount minRank
      by_cases hd : dots ∈ sideWords GL
      · rw [if_pos hd, if_pos hd, if_neg (by omega)]; simp
      · rw [if_neg hd, if_neg hd, if_pos rfl]
    · refine (oneUnknown_spread hng).2 ?_
      rw [denote_unitComp (side := 0) (k := 0) hs.units_left]
      exact hu

/-- in terms of words -/
theorem unknown_words {names names' ws : List Str} (hd : dots ∉ ws) (hn : ∀ w ∈ ws, ¬ IsNumber w → (w ∈ names' ↔ w ∈ names)) :
    ((ws.flatMap unitAxes).filter (fun a => !isKnown names' a)).length =
      (ws.filter (fun w => decide (¬ IsNumber w ∧ w ∉ names))).length := by
  induction ws with
  | nil => rfl
  | cons w ws ih =>
    have ih' := ih (fun h => hd (by simp [h])) (fun v hv => hn v (by simp [hv]))
    have hwd : w ≠ dots := fun h => hd (by simp [h])
    rw [List.flatMap_cons, List.filter_append, List.length_append, ih']
    by_cases hnum : IsNumber w
    · rw [List.filter_cons_of_neg (by simp [hnum])]
      simp [unitAxes, hwd, hnum]
    · have e := hn w (by simp) hnum
      by_cases hin : w ∈ names
      · rw [List.filter_cons_of_neg (by simp [hin])]
        simp [unitAxes, hwd, hnum, isKnown, e.2 hin]
      · rw [List.filter_cons_of_pos (by simp [hin, hnum])]
        have : w ∉ names' := fun h => hin (e.1 h)
        simp [unitAxes, hwd, hnum, isKnown, this]
        omega

/-- at most one axis without size in every group, in terms of words -/
theorem unknown_groups {GL : List Elem} (he : ∀ ws, Elem.paren ws ∈ GL → dots ∉ ws) {names names' : List Str}
    (hn : ∀ w ∈ axisWords GL, w ∈ names' ↔ w ∈ names) :
    (∀ g, CompAxis.group g ∈ GL.map unitComp → (g.filter (fun a => !isKnown names' a)).length ≤ 1) ↔
      ∀ ws, Elem.paren ws ∈ GL → (ws.filter (fun w => decide (¬ IsNumber w ∧ w ∉ names))).length ≤ 1 := by
  have key : ∀ ws, Elem.paren ws ∈ GL → ((ws.flatMap unitAxes).filter (fun a => !isKnown names' a)).length =
      (ws.filter (fun w => decide (¬ IsNumber w ∧ w ∉ names))).length := fun ws hws =>
    unknown_words (he ws hws) (fun w hw hnum => hn w (mem_axisWords.2 ⟨List.mem_flatMap.2 ⟨_, hws, hw⟩, hnum⟩))
  constructor
  · intro h ws hws
    rw [← key ws hws]
    exact h _ (List.mem_map.2 ⟨_, hws, rfl⟩)
  · intro h g hg
    obtain ⟨e, he', hge⟩ := List.mem_map.1 hg
    cases e with
    | bare w =>
      simp only [unitComp] at hge
      split at hge
      · cases hge
      · cases hge
        refine (List.length_filter_le _ _).trans ?_
        unfold unitAxes
        split
        · simp
        · split <;> simp
    | paren ws =>
      simp only [unitComp, CompAxis.group.injEq] at hge
      rw [← hge, key ws he']
      exact h ws he'

/-! ### the two layers -/

/-- keywords for the layer before the contraction -/
def preKw (GL : List Elem) (kw : List (Str × Size)) : List (Str × Size) := kw.filter (fun p => decide (p.1 ∈ axisWords GL))

theorem mem_preKw_names {GL : List Elem} {kw : List (Str × Size)} {n : Str} :
    n ∈ (preKw GL kw).map Prod.fst ↔ n ∈ kw.map Prod.fst ∧ n ∈ axisWords GL := by
  unfold preKw
  simp only [List.mem_map, List.mem_filter, decide_eq_true_eq]
  constructor
  · rintro ⟨p, ⟨h1, h2⟩, rfl⟩; exact ⟨⟨p, h1, rfl⟩, h2⟩
  · rintro ⟨⟨p, h1, rfl⟩, h2⟩; exact ⟨p, ⟨h1, h2⟩, rfl⟩

/-- what is known of the first layer -/
def PreLayer {α : Type u} (so : Nat → SetOrder) (GL : List Elem) (kw : List (Str × Size)) (pre : Option (Layer α)) : Prop :=
  (pre = none ∧ hasNonSingle (GL.map unitComp) = false) ∨
  ∃ l pat, pre = some l ∧ IsPattern pat GL (flatSide GL) ∧ rearrangeLayer so pat (preKw GL kw) = .ok l ∧
    hasNonSingle (GL.map unitComp) = true

/-- what is known of the second layer -/
def PostLayer {α : Type u} (so : Nat → SetOrder) (GR : List Elem) (post : Option (Layer α)) : Prop :=
  (post = none ∧ hasNonSingle (GR.map unitComp) = false ∧ ∀ ws, Elem.paren ws ∈ GR → dots ∉ ws) ∨
  ∃ l pat, post = some l ∧ IsPattern pat (flatSide GR) GR ∧ rearrangeLayer so pat [] = .ok l ∧
    (hasNonSingle (GR.map unitComp) = true ∨ ∃ ws, Elem.paren ws ∈ GR ∧ dots ∈ ws)

/-- the rule that the first layer enforces -/
def Unknowns (GL : List Elem) (names : List Str) : Prop :=
  ∀ ws, Elem.paren ws ∈ GL → (ws.filter (fun w => decide (¬ IsNumber w ∧ w ∉ names))).length ≤ 1

theorem unknowns_of_single {GL : List Elem} (h : hasNonSingle (GL.map unitComp) = false) (names : List Str) :
    Unknowns GL names := by
  intro ws hws
  unfold hasNonSingle at h
  rw [List.any_eq_false] at h
  have := h _ (List.mem_map.2 ⟨_, hws, rfl⟩)
  simp only [unitComp_axes, Elem.words, decide_eq_true_eq, not_not] at this
  rw [flatMap_unitAxes, List.length_map] at this
  rw [← this]
  refine List.Sublist.length_le ?_
  rw [show (fun w => decide (¬ IsNumber w ∧ w ∉ names)) = (fun w => decide (¬ IsNumber w) && decide (w ∉ names)) by
    funext w; rw [Bool.decide_and], ← List.filter_filter]
  exact List.Sublist.filter _ List.filter_sublist |>.trans (by simp)

theorem makePre_cases {α : Type u} (so : Nat → SetOrder) {GL GR GW : List Elem} {l : Str} (hl : IsSide false false l GL)
    (hc : ChecksOK GL GR GW) (kw : List (Str × Size)) :
    (∃ pre : Option (Layer α), makeRearrange so (preReshape l (describe 0 GL) kw) = .ok pre ∧ PreLayer so GL kw pre ∧
      Unknowns GL (kw.map Prod.fst)) ∨
    ((makeRearrange so (preReshape l (describe 0 GL) kw) : Py (Option (Layer α))) = .error .einops ∧
      ¬ (Unknowns GL (kw.map Prod.fst) ∧ dots ∉ kw.map Prod.fst)) := by
  unfold preReshape
  rw [show (describe 0 GL).composition = GL.map unitComp from denote_unitComp hc.units_left]
  by_cases hs : hasNonSingle (GL.map unitComp) = true
  swap
  · left
    rw [if_neg hs]
    rw [Bool.not_eq_true] at hs
    exact ⟨none, rfl, .inl ⟨rfl, hs⟩, unknowns_of_single hs _⟩
  rw [if_pos hs]
  simp only [flatNames_units (side_no_ell hl)]
  set pat := l ++ ['-', '>', ' '] ++ List.intercalate [' '] (axisWords GL) with hpat
  have hp : IsPattern pat GL (flatSide GL) := ⟨l, _, by rw [hpat]; simp, hl, isSide_flat_left hl⟩
  have hpm := prepared_min hl (sides_pre hc.ellipsis_left hc.units_left) (names := (preKw GL kw).map Prod.fst)
  rw [unknown_groups (names := kw.map Prod.fst) hc.ellipsis_left (fun w hw => by rw [mem_preKw_names]; exact and_iff_left hw)] at hpm
  have hmk : (makeRearrange so (some (pat, List.filter (fun p => decide (p.1 ∈ axisWords GL)) kw)) : Py (Option (Layer α))) =
      (rearrangeLayer so pat (preKw GL kw)).map some := by
    unfold makeRearrange preKw
    simp only
    cases rearrangeLayer so pat (kw.filter (fun p => decide (p.1 ∈ axisWords GL))) <;> rfl
  rw [hmk]
  rcases rearrangeLayer_cases (α := α) hp so (preKw GL kw) with ⟨⟨ly, hly⟩, hpr⟩ | ⟨hly, hpr⟩
  · left
    rw [hly]
    exact ⟨some ly, rfl, .inr ⟨ly, pat, rfl, hp, hly, hs⟩, (hpm.1 hpr).2⟩
  · right
    rw [hly]
    refine ⟨rfl, fun ⟨h1, h2⟩ => hpr (hpm.2 ⟨?_, h1⟩)⟩
    intro n hn
    obtain ⟨hn1, hn2⟩ := mem_preKw_names.1 hn
    obtain ⟨hn3, hn4⟩ := mem_axisWords.1 hn2
    refine ⟨?_, List.mem_append_left _ hn3⟩
    rcases hl.words_ok n hn3 with rfl | ⟨h, -⟩ | h
    · exact absurd hn1 h2
    · exact absurd h hn4
    · exact h

theorem makePost_ok {α : Type u} (so : Nat → SetOrder) {GR : List Elem} {r : Str} (hr : IsSide false false r GR)
    (hu : OnlyUnits GR) :
    ∃ post : Option (Layer α), makeRearrange so ((postReshape r (describe 1 GR)).map (fun s => (s, []))) = .ok post ∧
      PostLayer so GR post := by
  unfold postReshape
  rw [show (describe 1 GR).composition = GR.map unitComp from denote_unitComp hu]
  have hep : (describe 1 GR).ellParen = some true ↔ ∃ ws, Elem.paren ws ∈ GR ∧ dots ∈ ws := ellPos_paren hr.one_ellipsis
  by_cases hs : hasNonSingle (GR.map unitComp) = true ∨ (describe 1 GR).ellParen = some true
  swap
  · rw [if_neg hs]
    rw [not_or, Bool.not_eq_true, hep] at hs
    exact ⟨none, rfl, .inl ⟨rfl, hs.1, fun ws h1 h2 => hs.2 ⟨ws, h1, h2⟩⟩⟩
  rw [if_pos hs, flatNames_units (side_no_ell hr)]
  set pat := List.intercalate [' '] (axisWords GR) ++ [' ', '-', '>'] ++ r with hpat
  have hp : IsPattern pat (flatSide GR) GR := ⟨_, r, by rw [hpat]; simp, isSide_flat_right hr, hr⟩
  have hpm := prepared_min (isSide_flat_right hr) (sides_post hu) (names := [])
  have hpr := hpm.2 ⟨fun n hn => (List.not_mem_nil hn).elim, by
    intro g hg
    obtain ⟨e, he, hge⟩ := List.mem_map.1 hg
    obtain ⟨w, hw, rfl⟩ := List.mem_map.1 he
    simp only [unitComp] at hge
    split at hge
    · cases hge
    · cases hge
      refine (List.length_filter_le _ _).trans ?_
      unfold unitAxes
      split
      · simp
      · split <;> simp⟩
  rcases rearrangeLayer_cases (α := α) hp so [] with ⟨⟨ly, hly⟩, -⟩ | ⟨-, hno⟩
  · refine ⟨some ly, ?_, .inr ⟨ly, pat, rfl, hp, hly, by rw [hep] at hs; exact hs⟩⟩
    simp only [Option.map_some, makeRearrange, hly]
  · exact absurd hpr hno

end

end Einops
