import Verif.Proofs.Counts
import Verif.Proofs.Calls
import Verif.Proofs.Algebra

/-! Calls with the sides of another call. -/

namespace Einops

universe u

section
variable [PyUnicode]

theorem IsPattern.unique {l r : Str} {GL GR GL' GR' : List Elem} (hl : IsSide false false l GL) (hr : IsSide false false r GR)
    (h : IsPattern (l ++ ['-', '>'] ++ r) GL' GR') : GL' = GL ∧ GR' = GR := by
  obtain ⟨_, l', r', h1, hl', hr'⟩ := isPattern_split h
  have h2 : splitArrow (l ++ ['-', '>'] ++ r) = .ok (l, r) := splitArrow_iff.2 ⟨rfl, isSide_no_arrow hl, isSide_no_arrow hr⟩
  rw [h1] at h2
  cases h2
  exact ⟨hl'.unique hl, hr'.unique hr⟩

/-! ### the two ways of numbering -/

/-- exchange the sides of numbers -/
def swapSide : Axis → Axis
  | .str w => .str w
  | .anon s i v => .anon (1 - s) i v

theorem wordAxes_swap {s : Nat} (k : Nat) (w : Str) : wordAxes (1 - s) k w = (wordAxes s k w).map swapSide := by
  unfold wordAxes
  split
  · rfl
  · split
    · split <;> rfl
    · rfl

theorem wordsAxes_swap {s : Nat} (k : Nat) (ws : List Str) : wordsAxes (1 - s) k ws = (wordsAxes s k ws).map swapSide := by
  induction ws generalizing k with
  | nil => rfl
  | cons w ws ih => simp only [wordsAxes, List.map_append, ih, wordAxes_swap (s := s)]

theorem denote_swap {s : Nat} (k : Nat) (G : List Elem) :
    denote (1 - s) k G = (denote s k G).map (CompAxis.relabel swapSide) := by
  induction G generalizing k with
  | nil => rfl
  | cons e G ih =>
    cases e with
    | bare w =>
      simp only [denote, List.map_cons, ih]
      by_cases hd : w = dots
      · simp [hd, CompAxis.relabel]
      · simp [hd, CompAxis.relabel, wordAxes_swap (s := s)]
    | paren ws => simp only [denote, List.map_cons, ih, CompAxis.relabel, wordsAxes_swap (s := s)]

theorem spread_swap {s : Nat} (n : Nat) (G : List Elem) :
    spread (ellAxes n) (denote (1 - s) 0 G) = relabel swapSide (spread (ellAxes n) (denote s 0 G)) := by
  rw [denote_swap, spread_relabel]
  · intro a ha
    obtain ⟨i, _, rfl⟩ := mem_ellAxes.1 ha
    rfl
  · intro a _
    cases a <;> simp [swapSide]

/-- the numbers of a side carry its number -/
theorem anon_side {s n : Nat} {G : List Elem} {t i v : Nat}
    (h : Axis.anon t i v ∈ (spread (ellAxes n) (denote s 0 G)).flatten) : t = s := (anon_mem_side h).1

omit [PyUnicode] in
theorem swapSide_swap {a : Axis} (h : ∀ t i v, a = .anon t i v → t ≤ 1) : swapSide (swapSide a) = a := by
  cases a with
  | str w => rfl
  | anon t i v =>
    have := h t i v rfl
    simp only [swapSide]
    congr 1
    omega

/-- sides of numbers in a pattern -/
theorem sides_le {n : Nat} {GL GR : List Elem} {a : Axis}
    (h : a ∈ (spread (ellAxes n) (denote 0 0 GL)).flatten ++ (spread (ellAxes n) (denote 1 0 GR)).flatten) :
    ∀ t i v, a = .anon t i v → t ≤ 1 := by
  rintro t i v rfl
  rcases List.mem_append.1 h with h | h
  · rw [anon_side h]; omega
  · rw [anon_side h]

/-- without numbers other than 1 the side does not matter -/
theorem wordAxes_units {s s' k k' : Nat} {w : Str} (h : IsNumber w → decimalValue w = 1) : wordAxes s k w = wordAxes s' k' w := by
  unfold wordAxes
  split
  · rfl
  · split
    · rename_i hn
      rw [if_pos (h hn), if_pos (h hn)]
    · rfl

theorem wordsAxes_units {s s' k k' : Nat} {ws : List Str} (h : ∀ w ∈ ws, IsNumber w → decimalValue w = 1) :
    wordsAxes s k ws = wordsAxes s' k' ws := by
  induction ws generalizing k k' with
  | nil => rfl
  | cons w ws ih =>
    simp only [wordsAxes]
    rw [wordAxes_units (s' := s') (k' := k') (h w (by simp)), ih (fun w hw => h w (by simp [hw]))]

theorem denote_units {s s' k k' : Nat} {G : List Elem} (h : OnlyUnits G) : denote s k G = denote s' k' G := by
  induction G generalizing k k' with
  | nil => rfl
  | cons e G ih =>
    have hG : OnlyUnits G := fun w hw => h w (by
      simp only [sideWords, List.flatMap_cons, List.mem_append]; exact .inr hw)
    cases e with
    | bare w =>
      simp only [denote]
      rw [wordAxes_units (s' := s') (k' := k') (h w (by simp [sideWords, Elem.words])), ih hG]
    | paren ws =>
      simp only [denote]
      rw [wordsAxes_units (s' := s') (k' := k') (fun w hw => h w (by simp [sideWords, Elem.words, hw])), ih hG]

/-! ### calls with all lengths -/

/-- a dimension of a side: one axis of the ellipsis, or words -/
theorem group_cases {s n k : Nat} {G : List Elem} (hw : ∀ w ∈ sideWords G, '…' ∉ w)
    (hp : ∀ ws, Elem.paren ws ∈ G → dots ∉ ws) {g : List Axis} (hg : g ∈ spread (ellAxes n) (denote s k G)) :
    (∃ a ∈ ellAxes n, g = [a]) ∨
      ∀ a ∈ g, (∃ w ∈ sideWords G, w ≠ dots ∧ ¬ IsNumber w ∧ a = .str w) ∨ ∃ i v, a = .anon s i v := by
  have key : ∀ {ws : List Str} {k : Nat}, (∀ w ∈ ws, '…' ∉ w) → dots ∉ ws →
      ∀ a ∈ (wordsAxes s k ws).flatMap (fun a => if a = .str ellipsisStr then ellAxes n else [a]),
        (∃ w ∈ ws, w ≠ dots ∧ ¬ IsNumber w ∧ a = .str w) ∨ ∃ i v, a = .anon s i v := by
    intro ws k hw hd a ha
    obtain ⟨c, hc, h1⟩ := List.mem_flatMap.1 ha
    have hne : c ≠ .str ellipsisStr := by
      rintro rfl
      exact hd ((marker_mem_wordsAxes hw).1 hc)
    rw [if_neg hne] at h1
    simp only [List.mem_singleton] at h1
    subst h1
    cases a with
    | str w =>
      obtain ⟨v, hv, ⟨h1, _⟩ | ⟨h1, h2, rfl⟩⟩ := str_mem_wordsAxes.1 hc
      · exact absurd (h1 ▸ hv) hd
      · exact .inl ⟨w, hv, h1, h2, rfl⟩
    | anon t i v =>
      obtain ⟨rfl, _⟩ := anon_mem_wordsAxes hc
      exact .inr ⟨i, v, rfl⟩
  induction G generalizing k with
  | nil => simp [denote, spread] at hg
  | cons e G ih =>
    have hw' : ∀ w ∈ sideWords G, '…' ∉ w := fun w h => hw w (by
      simp only [sideWords, List.flatMap_cons, List.mem_append]; exact .inr h)
    have lift : ∀ {k}, g ∈ spread (ellAxes n) (denote s k G) → (∃ a ∈ ellAxes n, g = [a]) ∨
        ∀ a ∈ g, (∃ w ∈ sideWords (e :: G), w ≠ dots ∧ ¬ IsNumber w ∧ a = .str w) ∨ ∃ i v, a = .anon s i v := by
      intro k h
      rcases ih hw' (fun ws h => hp ws (by simp [h])) h with h1 | h1
      · exact .inl h1
      · refine .inr fun a ha => ?_
        rcases h1 a ha with ⟨w, h2, h3⟩ | h2
        · exact .inl ⟨w, by simp only [sideWords, List.flatMap_cons, List.mem_append]; exact .inr h2, h3⟩
        · exact .inr h2
    cases e with
    | bare w =>
      simp only [denote] at hg
      by_cases hd : w = dots
      · rw [if_pos hd] at hg
        simp only [spread, List.mem_append, List.mem_map] at hg
        rcases hg with ⟨a, ha, rfl⟩ | hg
        · exact .inl ⟨a, ha, rfl⟩
        · exact lift hg
      · rw [if_neg hd] at hg
        simp only [spread, List.mem_cons] at hg
        rcases hg with rfl | hg
        · right
          have := key (ws := [w]) (k := k) (fun v hv => hw v (by simpa [sideWords, Elem.words] using .inl (List.mem_singleton.1 hv)))
            (by simpa using Ne.symm hd)
          simp only [wordsAxes, List.append_nil] at this
          intro a ha
          rcases this a ha with ⟨v, hv, h⟩ | h
          · simp only [List.mem_singleton] at hv
            subst hv
            exact .inl ⟨v, by simp [sideWords, Elem.words], h⟩
          · exact .inr h
        · exact lift hg
    | paren ws =>
      simp only [denote, spread, List.mem_cons] at hg
      rcases hg with rfl | hg
      · right
        intro a ha
        rcases key (ws := ws) (k := k) (fun v hv => hw v (by simp [sideWords, Elem.words, hv])) (hp ws (by simp)) a ha with
          ⟨v, hv, h⟩ | h
        · exact .inl ⟨v, by simp [sideWords, Elem.words, hv], h⟩
        · exact .inr h
      · exact lift hg

theorem name_of_word {u : Bool} {w : Str} (h : WordOK u w) (hd : w ≠ dots) (hn : ¬ IsNumber w) : IsName u w := by
  rcases h with h | h | h
  · exact absurd h hd
  · exact absurd h.1 hn
  · exact h

/-- a call that is given all lengths -/
theorem accepted_full {op : OpKind} {l r : Str} {GL GR : List Elem} (hl : IsSide false false l GL)
    (hr : IsSide false false r GR) {kw : List (Str × Size)} (hs : SidesOK op GL GR (kw.map Prod.fst)) {n : Nat}
    (hn : dots ∉ sideWords GL → n = 0) {len : AxisMap} (hk : GivesLengths GL GR len kw) {shape : List Nat}
    (hnum : ∀ side i v, Axis.anon side i v ∈ (spread (ellAxes n) (denote 0 0 GL)).flatten ++
      (spread (ellAxes n) (denote 1 0 GR)).flatten → len (.anon side i v) = v)
    (hsh : shape = (spread (ellAxes n) (denote 0 0 GL)).map (groupSize len)) :
    Accepted op (l ++ ['-', '>'] ++ r) kw shape GL GR (spread (ellAxes n) (denote 0 0 GL))
      (spread (ellAxes n) (denote 1 0 GR)) len := by
  have hE := sidesOK_ellipsis hs
  have hg : ∀ g ∈ spread (ellAxes n) (denote 0 0 GL), (∃ a, g = [a]) ∨ ∀ a ∈ g, isKnown (kw.map Prod.fst) a = true := by
    intro g hg
    rcases group_cases (side_no_ell hl) hE.2 hg with ⟨a, _, h⟩ | h
    · exact .inl ⟨a, h⟩
    · refine .inr fun a ha => ?_
      rcases h a ha with ⟨w, h1, h2, h3, rfl⟩ | ⟨i, v, rfl⟩
      · simp only [isKnown, decide_eq_true_eq]
        exact (hk.names w).2 ⟨name_of_word (hl.words_ok w h1) h2 h3, List.mem_append_left _ h1⟩
      · rfl
  refine ⟨⟨l, r, rfl, hl, hr⟩, ⟨hs, fun w hw => (hk.names w).1 hw, ⟨n, hn, rfl, rfl, by rw [hsh, List.length_map]⟩, ?_⟩,
    ⟨hsh, fun w s hw => hk.value (w, s) hw, hnum⟩, ?_⟩
  · intro g hg'
    rcases hg g hg' with ⟨a, rfl⟩ | h
    · exact le_trans (List.length_filter_le _ _) (by simp)
    · rw [List.filter_eq_nil_iff.2 (fun a ha => by simp [h a ha])]
      simp
  · rintro g hg' ⟨a, ha, h1⟩
    rcases hg g hg' with ⟨c, rfl⟩ | h
    · simp only [List.mem_singleton] at ha
      subst ha
      rw [List.filter_cons_of_neg (by simp [h1])]
      simp [groupSize]
    · rw [h a ha] at h1; cases h1

/-- the call with exchanged sides, given all lengths -/
theorem accepted_back {op op' : OpKind} {l r : Str} {GL GR : List Elem} (hl : IsSide false false l GL)
    (hr : IsSide false false r GR) {kw kw' : List (Str × Size)} {shape : List Nat} {L R : List (List Axis)} {len : AxisMap}
    (h : Accepted op (l ++ ['-', '>'] ++ r) kw shape GL GR L R len) (hw : dots ∈ sideWords GL → dots ∈ sideWords GR)
    (hs : SidesOK op' GR GL (kw'.map Prod.fst)) (hk : GivesLengths GR GL len kw') :
    Accepted op' (r ++ ['-', '>'] ++ l) kw' (R.map (groupSize len)) GR GL (relabel swapSide R) (relabel swapSide L)
      (len ∘ swapSide) := by
  obtain ⟨n, hn, rfl, rfl, _⟩ := h.prepared.groups
  rw [← spread_swap (s := 1), ← spread_swap (s := 0)]
  refine accepted_full (len := len ∘ swapSide) hr hl hs (fun hd => hn (fun h => hd (hw h))) ⟨hk.int, hk.names, hk.value⟩ ?_ ?_
  · intro side i v hm
    have h1 : Axis.anon (1 - side) i v ∈ (spread (ellAxes n) (denote 0 0 GL)).flatten ++ (spread (ellAxes n) (denote 1 0 GR)).flatten := by
      have e1 := spread_swap (s := 1) n GR
      have e2 := spread_swap (s := 0) n GL
      simp only [Nat.sub_self, Nat.sub_zero] at e1 e2
      rw [e1, e2, flatten_relabel, flatten_relabel] at hm
      rcases List.mem_append.1 hm with hm | hm
      · obtain ⟨a, ha, h1⟩ := List.mem_map.1 hm
        cases a with
        | str w => cases h1
        | anon t j u =>
          simp only [swapSide, Axis.anon.injEq] at h1
          obtain ⟨rfl, rfl, rfl⟩ := h1
          have := anon_side ha
          subst this
          exact List.mem_append_right _ ha
      · obtain ⟨a, ha, h1⟩ := List.mem_map.1 hm
        cases a with
        | str w => cases h1
        | anon t j u =>
          simp only [swapSide, Axis.anon.injEq] at h1
          obtain ⟨rfl, rfl, rfl⟩ := h1
          have := anon_side ha
          subst this
          exact List.mem_append_left _ ha
    exact h.fits.number_eq _ _ _ h1
  · have e1 := spread_swap (s := 1) n GR
    simp only [Nat.sub_self] at e1
    rw [e1]
    symm
    apply map_groupSize_relabel
    intro a ha
    simp only [Function.comp]
    rw [swapSide_swap (sides_le (GL := GL) (List.mem_append_right _ ha))]

omit [PyUnicode] in
theorem swapSide_inj {a c : Axis} (ha : ∀ t i v, a = .anon t i v → t ≤ 1) (hc : ∀ t i v, c = .anon t i v → t ≤ 1)
    (h : swapSide a = swapSide c) : a = c := by
  rw [← swapSide_swap ha, ← swapSide_swap hc, h]

/-- the lengths of all named axes as keyword arguments -/
theorem exists_lengths (GL GR : List Elem) (len : AxisMap) : ∃ kw, GivesLengths GL GR len kw := by
  let names := ((sideWords GL ++ sideWords GR).filter (fun w => decide (IsName false w))).dedup
  refine ⟨names.map (fun w => (w, ⟨len (.str w), true⟩)), ⟨?_, ?_⟩, ?_, ?_⟩
  · rw [List.map_map]
    have : (Prod.fst ∘ fun w => (w, (⟨(len (.str w) : Int), true⟩ : Size))) = id := rfl
    rw [this, List.map_id]
    exact List.nodup_dedup _
  · intro p hp
    obtain ⟨w, _, rfl⟩ := List.mem_map.1 hp
    rfl
  · intro w
    rw [List.map_map]
    have : (Prod.fst ∘ fun w => (w, (⟨(len (.str w) : Int), true⟩ : Size))) = id := rfl
    rw [this, List.map_id]
    simp only [names, List.mem_dedup, List.mem_filter, decide_eq_true_eq]
    exact and_comm
  · intro p hp
    obtain ⟨w, _, rfl⟩ := List.mem_map.1 hp
    rfl

end

/-! ### undoing a move -/

section
variable {α : Type u}

theorem Moves.reduces_back {op : List α → Py α} {g : α → α} {len : AxisMap} {L R : List (List Axis)} {x y z : Tensor α}
    (hop : ∀ v ∈ x.data, op (List.replicate (groupSize len (R.flatten.filter (fun a => a ∉ L.flatten))) v) = .ok (g v))
    (hR : R.flatten.Nodup) (hx : x.shape = L.map (groupSize len)) (hz : z.shape = x.shape) (hd : z.data = x.data.map g)
    (h1 : Moves len L R x y) : Reduces op len R L y z := by
  refine ⟨hz.trans hx, fun env henv => ?_⟩
  obtain ⟨v, hv⟩ := x.at?_isSome (show inBounds (L.map (groupPos len env)) x.shape = true by
    rw [hx]; exact inBounds_groups henv)
  have hv' : x.atAxes L len env = some v := hv
  have h6 : (loops len (R.flatten.filter (fun a => decide (a ∉ L.flatten))) env).map (y.atAxes R len) =
      (loops len (R.flatten.filter (fun a => decide (a ∉ L.flatten))) env).map (fun _ => some v) := by
    apply List.map_congr_left
    intro e he
    obtain ⟨h7, h8⟩ := mem_loops he
    have h8 := h8 (hR.filter _)
    have hL : ∀ a ∈ L.flatten, e a = env a := by
      intro a ha
      apply h7
      simp only [List.mem_filter, decide_eq_true_eq, not_and, not_not]
      exact fun _ => ha
    have hr : InRange len (L.flatten ++ R.flatten) e := by
      intro a ha
      by_cases haL : a ∈ L.flatten
      · rw [hL a haL]; exact henv a haL
      · exact h8 a (List.mem_filter.2 ⟨(List.mem_append.1 ha).resolve_left haL, by simpa using haL⟩)
    obtain ⟨u, h9, h10⟩ := h1.2 e hr
    rw [h10, ← h9, ← hv']
    exact atAxes_congr (fun _ _ => rfl) hL
  have hm : v ∈ x.data := by
    simp only [Tensor.at?] at hv
    split at hv
    · exact List.mem_of_getElem? hv
    · cases hv
  refine ⟨List.replicate (groupSize len (R.flatten.filter (fun a => decide (a ∉ L.flatten)))) v, g v, ?_, hop v hm, ?_⟩
  · rw [h6, List.map_const', loops_length, List.map_replicate]
  · have hz' : z.atAxes L len env = (x.atAxes L len env).map g := by
      unfold Tensor.atAxes Tensor.at?
      rw [hz, hd]
      split
      · rw [List.getElem?_map]
      · rfl
    rw [hz', hv']; rfl

end

end Einops
