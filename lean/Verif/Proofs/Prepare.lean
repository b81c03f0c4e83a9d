import Verif.Legal
import Verif.Proofs.Sides
import Verif.Proofs.Reconstruct

/-! When preparation of a recipe succeeds, and what it then knows. -/

namespace Einops

variable [PyUnicode]

section
variable {GL GR : List Elem} {l r : Str} (hL : IsSide false false l GL) (hR : IsSide false false r GR)

omit hL in
theorem side_no_ell {u d : Bool} {s : Str} {G : List Elem} (h : IsSide u d s G) : ∀ w ∈ sideWords G, '…' ∉ w :=
  fun w hw => wordOK_no_ell (h.words_ok w hw)

theorem mem_describe_ids {side : Nat} {G : List Elem} {a : Axis} :
    a ∈ (describe side G).identifiers ↔ a ∈ wordsAxes side 0 (sideWords G) := by
  simp [describe, mem_foldl_setAdd, sideWords]

omit [PyUnicode] in
theorem filter_ne_nil_iff {κ : Type} {p : κ → Bool} {l : List κ} : l.filter p ≠ [] ↔ ∃ a ∈ l, p a = true := by
  simp [List.filter_eq_nil_iff]

omit [PyUnicode] in
theorem names_str_word {G : List Elem} (h : ∀ w ∈ sideWords G, '…' ∉ w) {w : Str} (hw : w ∈ sideWords G) :
    w ≠ ellipsisStr := by
  rintro rfl
  exact h _ hw (by simp [ellipsisStr])

/-- the axis that stands for a word that is not a number -/
theorem str_mem_side {side k : Nat} {G : List Elem} (h : ∀ w ∈ sideWords G, '…' ∉ w) {w : Str} (hd : w ≠ dots)
    (hw : '…' ∉ w) : Axis.str w ∈ wordsAxes side k (sideWords G) ↔ w ∈ sideWords G ∧ ¬ IsNumber w := by
  rw [str_mem_wordsAxes]
  constructor
  · rintro ⟨v, hv, ⟨_, rfl⟩ | ⟨_, h2, rfl⟩⟩
    · simp [ellipsisStr] at hw
    · exact ⟨hv, h2⟩
  · rintro ⟨h1, h2⟩
    exact ⟨w, h1, .inr ⟨hd, h2, rfl⟩⟩

include hL hR in
theorem within_iff {sL sR kL kR : Nat} (hne : sL ≠ sR) :
    (∀ a ∈ wordsAxes sL kL (sideWords GL), a ∈ wordsAxes sR kR (sideWords GR)) ↔ OnlyUnits GL ∧ NamesWithin GL GR := by
  have eL := side_no_ell hL
  have eR := side_no_ell hR
  constructor
  · intro h
    refine ⟨?_, ?_⟩
    · intro w hw hn
      by_contra hv
      obtain ⟨i, hi, rfl⟩ := List.getElem_of_mem hw
      have : Axis.anon sL (kL + i) (decimalValue (sideWords GL)[i]) ∈ wordsAxes sL kL (sideWords GL) :=
        mem_wordsAxes.2 ⟨i, hi, anon_mem_wordAxes.2 ⟨rfl, rfl, hn, hv, rfl⟩⟩
      exact hne (anon_mem_wordsAxes (h _ this)).1
    · intro w hw hn
      by_cases hd : w = dots
      · subst hd
        rw [← marker_mem_wordsAxes (side := sR) (k := kR) eR]
        exact h _ ((marker_mem_wordsAxes eL).2 hw)
      · exact ((str_mem_side eR hd (eL w hw)).1 (h _ ((str_mem_side eL hd (eL w hw)).2 ⟨hw, hn⟩))).1
  · rintro ⟨hu, hn⟩ a ha
    cases a with
    | anon sd i v =>
      obtain ⟨_, _, hi, h1, h2, _⟩ := anon_mem_wordsAxes ha
      exact absurd (hu _ (List.getElem_mem hi) h1) h2
    | str s =>
      obtain ⟨w, hw, ⟨rfl, rfl⟩ | ⟨h1, h2, rfl⟩⟩ := str_mem_wordsAxes.1 ha
      · exact (marker_mem_wordsAxes eR).2 (hn _ hw dots_not_number)
      · exact (str_mem_side eR h1 (eL _ hw)).2 ⟨hn _ hw h2, h2⟩

theorem nonUnitary_iff {side : Nat} {G : List Elem} : (describe side G).nonUnitary = true ↔ ¬ OnlyUnits G := by
  simp only [describe, OnlyUnits, sideWords, List.any_eq_true, decide_eq_true_eq]
  push Not
  rfl

include hL in
theorem ellipsisOK_iff : EllipsisOK GL GR ↔ ¬ (((describe 0 GL).hasEllipsis = false ∧ (describe 1 GR).hasEllipsis = true) ∨
    ((describe 0 GL).hasEllipsis = true ∧ (describe 0 GL).ellParen = some true)) := by
  have hp := ellPos_paren (G := GL) hL.one_ellipsis
  have h1 : (describe 0 GL).ellParen = some true ↔ ∃ ws, Elem.paren ws ∈ GL ∧ dots ∈ ws := hp
  have h2 : (describe 0 GL).hasEllipsis = true ↔ dots ∈ sideWords GL := by simp [describe, sideWords]
  have h2' : (describe 0 GL).hasEllipsis = false ↔ dots ∉ sideWords GL := by simp [describe, sideWords]
  have h3 : (describe 1 GR).hasEllipsis = true ↔ dots ∈ sideWords GR := by simp [describe, sideWords]
  rw [h1, h2, h2', h3]
  unfold EllipsisOK
  have h4 : ∀ ws, Elem.paren ws ∈ GL → dots ∈ ws → dots ∈ sideWords GL := fun ws h h' =>
    List.mem_flatMap.2 ⟨_, h, by simpa [Elem.words] using h'⟩
  constructor
  · rintro ⟨ha, hb⟩ (⟨hc, hd⟩ | ⟨_, ws, hc, hd⟩)
    · exact hc (ha hd)
    · exact hb ws hc hd
  · intro h
    push Not at h
    exact ⟨fun hd => by_contra fun hc => (h.1 hc) hd, fun ws hc hd => h.2 (h4 ws hc hd) ws hc hd⟩

open Classical in
include hL hR in
theorem checkSides_iff (op : OpKind) (names : List Str) :
    checkSides (describe 0 GL) (describe 1 GR) op names = if SidesOK op GL GR names then .ok () else .error .einops := by
  have eL := side_no_ell hL
  have eR := side_no_ell hR
  have hLR := within_iff (kL := 0) (kR := 0) hL hR (sL := 0) (sR := 1) (by omega)
  have hRL := within_iff (kL := 0) (kR := 0) hR hL (sL := 1) (sR := 0) (by omega)
  have key : ∀ {p q : List Elem} {sp sq : Nat}, ((describe sp p).identifiers.filter
      (fun a => decide (a ∉ (describe sq q).identifiers)) ≠ []) ↔
      ¬ ∀ a ∈ wordsAxes sp 0 (sideWords p), a ∈ wordsAxes sq 0 (sideWords q) := by
    intro p q sp sq
    rw [filter_ne_nil_iff]
    simp only [mem_describe_ids, decide_eq_true_eq]
    push Not
    rfl
  unfold checkSides
  by_cases hE : EllipsisOK GL GR
  swap
  · have hno : ¬ SidesOK op GL GR names := by
      unfold SidesOK
      split_ifs
      · exact fun h => hE h.ellipsis
      · exact fun h => hE h.ellipsis
      · exact fun h => hE h.2.ellipsis
    rw [if_neg hno]
    rw [ellipsisOK_iff hL, not_not] at hE
    rcases hE with ⟨h1, h2⟩ | ⟨h1, h2⟩
    · rw [if_pos (by simp [h1, h2])]
    · rw [if_neg (by simp [h1]), if_pos (by simp [h1, h2])]
  have hE' := (ellipsisOK_iff hL).1 hE
  push Not at hE'
  have c1 : ¬ (!(describe 0 GL).hasEllipsis && (describe 1 GR).hasEllipsis) = true := by
    simp only [Bool.and_eq_true, Bool.not_eq_true']
    rintro ⟨a, b⟩
    exact hE'.1 a b
  have c2 : ¬ ((describe 0 GL).hasEllipsis && (describe 0 GL).ellParen == some true) = true := by
    simp only [Bool.and_eq_true, beq_iff_eq]
    rintro ⟨a, b⟩
    exact hE'.2 a b
  rw [if_neg c1, if_neg c2]
  unfold SidesOK
  by_cases h1 : op = .name "rearrange".toList
  · rw [if_pos h1, if_pos h1]
    by_cases hu : OnlyUnits GL ∧ OnlyUnits GR
    · have : ¬ ((describe 0 GL).nonUnitary || (describe 1 GR).nonUnitary) = true := by
        simp only [Bool.or_eq_true, nonUnitary_iff]; tauto
      rw [if_neg this]
      have hiff : ((describe 0 GL).identifiers.filter (fun a => decide (a ∉ (describe 1 GR).identifiers)) ++
          (describe 1 GR).identifiers.filter (fun a => decide (a ∉ (describe 0 GL).identifiers)) ≠ []) ↔
          ¬ RearrangeSides GL GR := by
        rw [ne_eq, List.append_eq_nil_iff, not_and_or]
        change (_ ≠ [] ∨ _ ≠ []) ↔ _
        rw [key, key, hLR, hRL]
        constructor
        · rintro (h | h) hs
          · exact h ⟨hs.units_left, hs.left_in_right⟩
          · exact h ⟨hs.units_right, hs.right_in_left⟩
        · intro h
          by_contra hc
          push Not at hc
          exact h ⟨hE, hu.1, hu.2, hc.1.2, hc.2.2⟩
      by_cases hs : RearrangeSides GL GR
      · rw [if_neg (by rw [hiff, not_not]; exact hs), if_pos hs]
      · rw [if_pos (hiff.2 hs), if_neg hs]
    · rw [if_pos, if_neg]
      · exact fun h => hu ⟨h.units_left, h.units_right⟩
      · simp only [Bool.or_eq_true, nonUnitary_iff]; tauto
  rw [if_neg h1, if_neg h1]
  by_cases h2 : op = .name "repeat".toList
  · rw [if_pos h2, if_pos h2]
    by_cases hu : OnlyUnits GL ∧ NamesWithin GL GR
    · rw [if_neg (by rw [key, hLR, not_not]; exact hu)]
      have hiff : ((describe 1 GR).identifiers.filter (fun a => !a.isAnon && decide (a ∉ (describe 0 GL).identifiers) &&
          decide (a ∉ names.map Axis.str)) ≠ []) ↔ ¬ RepeatSides GL GR names := by
        rw [filter_ne_nil_iff]
        simp only [mem_describe_ids, Bool.and_eq_true, decide_eq_true_eq]
        constructor
        · rintro ⟨a, ha, ⟨h3, h4⟩, h5⟩ hs
          cases a with
          | anon => simp [Axis.isAnon] at h3
          | str s =>
            obtain ⟨w, hw, ⟨rfl, rfl⟩ | ⟨h6, h7, rfl⟩⟩ := str_mem_wordsAxes.1 ha
            · exact h4 ((marker_mem_wordsAxes eL).2 (hE.1 hw))
            · rcases hs.new_sized _ hw h7 with h8 | h8
              · exact h4 ((str_mem_side eL h6 (eR _ hw)).2 ⟨h8, h7⟩)
              · exact h5 (List.mem_map.2 ⟨_, h8, rfl⟩)
        · intro h
          by_contra hc
          push Not at hc
          refine h ⟨hE, hu.1, hu.2, ?_⟩
          intro w hw hn
          by_cases hd : w = dots
          · subst hd; exact .inl (hE.1 hw)
          · by_contra hc'
            push Not at hc'
            have h3 := hc (.str w) ((str_mem_side eR hd (eR _ hw)).2 ⟨hw, hn⟩)
              ⟨rfl, fun h' => hc'.1 ((str_mem_side eL hd (eR _ hw)).1 h').1⟩
            simp only [List.mem_map, Axis.str.injEq, exists_eq_right] at h3
            exact hc'.2 h3
      by_cases hs : RepeatSides GL GR names
      · rw [if_neg (by rw [hiff, not_not]; exact hs), if_pos hs]
      · rw [if_pos (hiff.2 hs), if_neg hs]
    · rw [if_pos (by rw [key, hLR]; exact hu), if_neg]
      exact fun h => hu ⟨h.units_left, h.left_in_right⟩
  rw [if_neg h2, if_neg h2]
  have hred : ((describe 1 GR).identifiers.filter (fun a => decide (a ∉ (describe 0 GL).identifiers)) ≠ []) ↔
      ¬ ReduceSides GL GR := by
    rw [key, hRL]
    constructor
    · intro h hs; exact h ⟨hs.units_right, hs.right_in_left⟩
    · intro h hs; exact h ⟨hE, hs.1, hs.2⟩
  cases op with
  | callable =>
    simp only
    by_cases hs : ReduceSides GL GR
    · rw [if_neg (by rw [hred, not_not]; exact hs), if_pos ⟨by simp, hs⟩]
    · rw [if_pos (hred.2 hs), if_neg (fun h => hs h.2)]
  | name s =>
    simp only
    by_cases hsn : s ∈ builtins
    · rw [if_pos (show s ∈ reductionNames from hsn)]
      by_cases hs : ReduceSides GL GR
      · rw [if_neg (by rw [hred, not_not]; exact hs), if_pos ⟨by simp [hsn], hs⟩]
      · rw [if_pos (hred.2 hs), if_neg (fun h => hs h.2)]
    · rw [if_neg (show s ∉ reductionNames from hsn), if_neg (fun h => hsn (h.1 s rfl))]

theorem sidesOK_ellipsis {op : OpKind} {names : List Str} (h : SidesOK op GL GR names) : EllipsisOK GL GR := by
  unfold SidesOK at h
  split_ifs at h
  · exact h.ellipsis
  · exact h.ellipsis
  · exact h.2.ellipsis

/-! ### expansion of the ellipsis -/

omit [PyUnicode] in
theorem bare_count_of {G : List Elem} (h1 : (sideWords G).count dots ≤ 1) (hp : ∀ ws, Elem.paren ws ∈ G → dots ∉ ws) :
    G.count (.bare dots) = if dots ∈ sideWords G then 1 else 0 := by
  have h2 := count_bare_le h1
  split
  · rename_i h
    obtain ⟨e, he, hd⟩ := List.mem_flatMap.1 h
    have : Elem.bare dots ∈ G := by
      cases e with
      | bare w => simp only [Elem.words, List.mem_singleton] at hd; subst hd; exact he
      | paren ws => exact absurd hd (hp ws he)
    have := List.count_pos_iff.2 this
    omega
  · rename_i h
    rw [List.count_eq_zero.2 h] at h2
    omega

omit hL in
theorem flatten_spread (side n : Nat) (G : List Elem) :
    (spread (ellAxes n) (denote side 0 G)).flatten = (wordsAxes side 0 (sideWords G)).flatMap (subEll (ellAxes n)) := by
  rw [spread_flatten, denote_axes]

include hL in
theorem side_flatten_nodup (side n : Nat) : (spread (ellAxes n) (denote side 0 GL)).flatten.Nodup := by
  rw [flatten_spread]
  have e := side_no_ell hL
  apply nodup_flatMap_subEll (ellAxes_nodup n) (wordsAxes_nodup e (hL.nodup rfl))
  intro a ha
  cases a with
  | anon sd i v => rw [mem_ellAxes]; rintro ⟨j, _, hj⟩; cases hj
  | str s =>
    obtain ⟨w, hw, ⟨_, rfl⟩ | ⟨_, _, rfl⟩⟩ := str_mem_wordsAxes.1 ha
    · exact marker_not_mem_ellAxes n
    · exact name_not_mem_ellAxes (e _ hw)

theorem expandIds_iff {side n : Nat} {G : List Elem} (hd : dots ∈ sideWords G) (e : ∀ w ∈ sideWords G, '…' ∉ w) (a : Axis) :
    a ∈ expandIds (ellAxes n) (describe side G).identifiers ↔ a ∈ (spread (ellAxes n) (denote side 0 G)).flatten := by
  rw [mem_expandIds, flatten_spread, mem_flatMap_subEll, mem_describe_ids]
  have hm : Axis.str ellipsisStr ∈ wordsAxes side 0 (sideWords G) := (marker_mem_wordsAxes e).2 hd
  constructor
  · rintro ⟨h1, h2 | h2⟩
    · exact .inl ⟨h2, h1⟩
    · exact .inr ⟨h2, hm⟩
  · rintro (⟨h1, h2⟩ | ⟨h1, _⟩)
    · exact ⟨h2, .inl h1⟩
    · exact ⟨fun h => marker_not_mem_ellAxes n (h ▸ h1), .inr h1⟩

theorem plainIds_iff {side n : Nat} {G : List Elem} (hd : dots ∉ sideWords G) (e : ∀ w ∈ sideWords G, '…' ∉ w) (a : Axis) :
    a ∈ (describe side G).identifiers ↔ a ∈ (spread (ellAxes n) (denote side 0 G)).flatten := by
  rw [flatten_spread, mem_flatMap_subEll, mem_describe_ids]
  have hm : Axis.str ellipsisStr ∉ wordsAxes side 0 (sideWords G) := fun h => hd ((marker_mem_wordsAxes e).1 h)
  constructor
  · intro h; exact .inl ⟨h, fun h' => hm (h' ▸ h)⟩
  · rintro (⟨h, _⟩ | ⟨_, h⟩)
    · exact h
    · exact absurd h hm

theorem describe_ids_nodup (side : Nat) (G : List Elem) : (describe side G).identifiers.Nodup :=
  foldl_setAdd_nodup _ _ (by simp)

/-- the two sides expanded for an ellipsis of `n` axes -/
def exOf (GL GR : List Elem) (n : Nat) : Expanded where
  left := spread (ellAxes n) (denote 0 0 GL)
  rght := spread (ellAxes n) (denote 1 0 GR)
  leftIds := if dots ∈ sideWords GL then expandIds (ellAxes n) (describe 0 GL).identifiers else (describe 0 GL).identifiers
  rghtIds := if dots ∈ sideWords GR then expandIds (ellAxes n) (describe 1 GR).identifiers else (describe 1 GR).identifiers

omit hL in
/-- number of axes the ellipsis stands for, if the number of dimensions fits -/
def ellCount (GL : List Elem) (ndim : Nat) : Option Nat :=
  if dots ∈ sideWords GL then (if ndim < GL.length - 1 then none else some (ndim - (GL.length - 1)))
  else if ndim = GL.length then some 0 else none

include hL hR in
theorem exOf_wf (n : Nat) : ExpandedWF (exOf GL GR n) := by
  have eL := side_no_ell hL
  have eR := side_no_ell hR
  refine ⟨side_flatten_nodup hL 0 n, side_flatten_nodup hR 1 n, ?_, ?_, ?_⟩
  · intro a
    simp only [exOf]
    split
    · rename_i h; exact expandIds_iff h eL a
    · rename_i h; exact plainIds_iff h eL a
  · intro a
    simp only [exOf]
    split
    · rename_i h; exact expandIds_iff h eR a
    · rename_i h; exact plainIds_iff h eR a
  · simp only [exOf]
    split
    · unfold expandIds
      exact (foldl_setAdd_nodup _ _ (describe_ids_nodup 1 GR)).filter _
    · exact describe_ids_nodup 1 GR

include hL hR in
theorem expandSides_eq (hE : EllipsisOK GL GR) (ndim : Nat) :
    expandSides (describe 0 GL) (describe 1 GR) ndim =
      match ellCount GL ndim with
      | some n => .ok (exOf GL GR n)
      | none => .error .einops := by
  have eL := side_no_ell hL
  have eR := side_no_ell hR
  have hlen : (describe 0 GL).composition.length = GL.length := denote_length 0 0 GL
  have hgL : noGroupEll (denote 0 0 GL) := denote_noGroupEll eL hE.2
  unfold expandSides ellCount
  rw [hlen]
  by_cases hd : dots ∈ sideWords GL
  · have h1 : (describe 0 GL).hasEllipsis = true := by simpa [describe, sideWords] using hd
    rw [if_pos h1, if_pos hd]
    by_cases hn : ndim < GL.length - 1
    · rw [if_pos hn, if_pos hn]
    · rw [if_neg hn, if_neg hn]
      simp only [exOf, if_pos hd]
      congr 2
      · exact expandLeft_eq hgL
      · exact expandRight_eq _ _
      · by_cases hr : dots ∈ sideWords GR
        · rw [if_pos hr, if_pos (by simpa [describe, sideWords] using hr)]
        · rw [if_neg hr, if_neg (by simpa [describe, sideWords] using hr)]
  · have h1 : ¬ (describe 0 GL).hasEllipsis = true := by simpa [describe, sideWords] using hd
    have hdR : dots ∉ sideWords GR := fun h => hd (hE.1 h)
    rw [if_neg h1, if_neg hd]
    by_cases hn : ndim = GL.length
    · rw [if_neg (by omega), if_pos hn]
      simp only [exOf, if_neg hd, if_neg hdR]
      have hb : ∀ {G : List Elem}, dots ∉ sideWords G → CompAxis.ell ∉ denote 0 0 G ∧ CompAxis.ell ∉ denote 1 0 G := by
        intro G h
        rw [denote_ell, denote_ell]
        have : Elem.bare dots ∉ G := fun h' => h (List.mem_flatMap.2 ⟨_, h', by simp [Elem.words]⟩)
        exact ⟨this, this⟩
      congr 2
      · exact axes_eq_spread hgL (hb hd).1 _
      · refine axes_eq_spread (denote_noGroupEll eR ?_) (hb hdR).2 _
        intro ws hws h
        exact hdR (List.mem_flatMap.2 ⟨_, hws, by simpa [Elem.words] using h⟩)
    · rw [if_pos hn, if_neg hn]

include hL in
theorem groups_iff (hE : EllipsisOK GL GR) (ndim : Nat) (L R : List (List Axis)) :
    Groups GL GR ndim L R ↔ ∃ n, ellCount GL ndim = some n ∧ L = (exOf GL GR n).left ∧ R = (exOf GL GR n).rght := by
  have hc := bare_count_of hL.one_ellipsis hE.2
  have hlen : ∀ n, (spread (ellAxes n) (denote 0 0 GL)).length + GL.count (.bare dots) =
      GL.length + GL.count (.bare dots) * n := by
    intro n
    have := spread_length (side := 0) (k := 0) (G := GL) (ellAxes n)
    rwa [show (ellAxes n).length = n by simp [ellAxes]] at this
  unfold Groups ellCount
  have hpos : dots ∈ sideWords GL → 1 ≤ GL.length := by
    intro h
    rcases GL with _ | ⟨e, G⟩
    · simp [sideWords] at h
    · simp
  constructor
  · rintro ⟨n, h0, rfl, rfl, hn⟩
    refine ⟨n, ?_, rfl, rfl⟩
    have := hlen n
    rw [hn] at this
    by_cases hd : dots ∈ sideWords GL
    · rw [if_pos hd] at hc ⊢
      have := hpos hd
      rw [if_neg (by rw [hc] at *; omega)]
      congr 1
      rw [hc] at *
      omega
    · rw [if_neg hd] at hc ⊢
      rw [h0 hd, if_pos (by rw [hc] at *; omega)]
  · rintro ⟨n, hn, rfl, rfl⟩
    have := hlen n
    by_cases hd : dots ∈ sideWords GL
    · rw [if_pos hd] at hc hn
      have h5 := hpos hd
      split at hn
      · cases hn
      · rename_i hlt
        simp only [Option.some.injEq] at hn
        exact ⟨n, fun h => absurd hd h, rfl, rfl, by
          change (spread (ellAxes n) (denote 0 0 GL)).length = _
          rw [hc] at this; omega⟩
    · rw [if_neg hd] at hc hn
      split at hn
      · rename_i h
        simp only [Option.some.injEq] at hn
        subst hn
        exact ⟨0, fun _ => rfl, rfl, rfl, by
          change (spread (ellAxes 0) (denote 0 0 GL)).length = _
          rw [hc] at this; omega⟩
      · cases hn

/-! ### keywords -/

omit hL in
theorem name_mem_flatten {side n : Nat} {G : List Elem} (e : ∀ w ∈ sideWords G, '…' ∉ w) {w : Str} (hw : '…' ∉ w) :
    Axis.str w ∈ (spread (ellAxes n) (denote side 0 G)).flatten ↔ w ∈ sideWords G ∧ w ≠ dots ∧ ¬ IsNumber w := by
  rw [flatten_spread, mem_flatMap_subEll]
  constructor
  · rintro (⟨h1, _⟩ | ⟨h1, _⟩)
    · obtain ⟨v, hv, ⟨_, rfl⟩ | ⟨h2, h3, rfl⟩⟩ := str_mem_wordsAxes.1 h1
      · simp [ellipsisStr] at hw
      · exact ⟨hv, h2, h3⟩
    · exact absurd h1 (name_not_mem_ellAxes hw)
  · rintro ⟨h1, h2, h3⟩
    left
    refine ⟨(str_mem_side e h2 hw).2 ⟨h1, h3⟩, ?_⟩
    intro h
    cases h
    simp [ellipsisStr] at hw

theorem isIdentifier_no_ell {w : Str} (h : isIdentifier w = true) : '…' ∉ w := by
  intro hw
  have hx := PyUnicode.special_not_xid '…' (by simp)
  cases w with
  | nil => simp at hw
  | cons c cs =>
    simp only [isIdentifier, Bool.and_eq_true, Bool.or_eq_true, List.all_eq_true, beq_iff_eq] at h
    rcases List.mem_cons.1 hw with h1 | h1
    · subst h1
      rw [hx.1] at h
      simp at h
    · rw [h.2 _ h1] at hx
      simp at hx

theorem checkAxisName_ident {u : Bool} {w : Str} (h : checkAxisName u w = true) : isIdentifier w = true := by
  unfold checkAxisName at h
  by_contra hc
  simp [hc] at h

theorem isName_no_ell {u : Bool} {w : Str} (h : IsName u w) : '…' ∉ w := isIdentifier_no_ell (isIdentifier_iff.2 h.2.1)

theorem isName_ne_dots {u : Bool} {w : Str} (h : IsName u w) : w ≠ dots := by
  rintro rfl
  have := isIdentifier_iff.2 h.2.1
  simp [dots, isIdentifier, (PyUnicode.special_not_xid '.' (by simp)).1] at this

theorem isName_check {w : Str} (h : IsName false w) : checkAxisName false w = true :=
  (checkAxisName_iff false (fun c hc => (h.1 c hc).elim .inl (fun h => .inr (.inl h))) (isName_no_ell h)).2 h

include hL hR in
theorem namesOK_iff (n : Nat) (names : List Str) : namesOK (exOf GL GR n) names ↔ KeywordsUsed GL GR names := by
  have eL := side_no_ell hL
  have eR := side_no_ell hR
  unfold namesOK KeywordsUsed
  refine forall_congr' fun w => forall_congr' fun _ => ?_
  rw [(exOf_wf hL hR n).rghtIds_iff]
  constructor
  · rintro ⟨h1, h2⟩
    have hw := isIdentifier_no_ell (checkAxisName_ident h1)
    have aux : ∀ {side : Nat} {s : Str} {G : List Elem}, IsSide false false s G →
        Axis.str w ∈ (spread (ellAxes n) (denote side 0 G)).flatten → IsName false w ∧ w ∈ sideWords G := by
      intro side s G hG h
      obtain ⟨h3, h4, h5⟩ := (name_mem_flatten (side_no_ell hG) hw).1 h
      rcases hG.words_ok w h3 with h6 | h6 | h6
      · exact absurd h6 h4
      · exact absurd h6.1 h5
      · exact ⟨h6, h3⟩
    rcases h2 with h2 | h2
    · have := aux hL h2
      exact ⟨this.1, List.mem_append_left _ this.2⟩
    · have := aux hR h2
      exact ⟨this.1, List.mem_append_right _ this.2⟩
  · rintro ⟨h1, h2⟩
    refine ⟨isName_check h1, ?_⟩
    rcases List.mem_append.1 h2 with h2 | h2
    · exact .inl ((name_mem_flatten eL (isName_no_ell h1)).2 ⟨h2, isName_ne_dots h1, isName_not_number false h1⟩)
    · exact .inr ((name_mem_flatten eR (isName_no_ell h1)).2 ⟨h2, isName_ne_dots h1, isName_not_number false h1⟩)

end

/-! ### preparation of recipes -/

theorem isPattern_split {pattern : Str} {GL GR : List Elem} (h : IsPattern pattern GL GR) :
    '…' ∉ pattern ∧ ∃ l r, splitArrow pattern = .ok (l, r) ∧ IsSide false false l GL ∧ IsSide false false r GR := by
  obtain ⟨l, r, rfl, h1, h2⟩ := h
  refine ⟨?_, l, r, splitArrow_iff.2 ⟨rfl, isSide_no_arrow h1, isSide_no_arrow h2⟩, h1, h2⟩
  simp only [List.mem_append, not_or]
  exact ⟨⟨isSide_no_special h1 (by simp), by simp⟩, isSide_no_special h2 (by simp)⟩

open Classical in
/-- what preparation does for a well formed pattern -/
theorem prepare_pattern {pattern : Str} {GL GR : List Elem} (h : IsPattern pattern GL GR) (so : SetOrder) (op : OpKind)
    (names : List Str) (ndim : Nat) :
    prepareRecipe so pattern op names ndim =
      if SidesOK op GL GR names then
        (match ellCount GL ndim with
          | some n => buildRecipe so (exOf GL GR n) names
          | none => .error .einops)
      else .error .einops := by
  obtain ⟨hp, l, r, hs, hL, hR⟩ := isPattern_split h
  obtain ⟨rfl, h1, h2⟩ := splitArrow_iff.1 hs
  simp only [List.mem_append, not_or] at hp
  unfold prepareRecipe
  rw [hs]
  simp only
  rw [(parseExpression_iff 0 false false l hp.1.1 _).2 ⟨GL, hL, rfl⟩,
    (parseExpression_iff 1 false false r hp.2 _).2 ⟨GR, hR, rfl⟩]
  simp only
  rw [checkSides_iff hL hR]
  by_cases hs : SidesOK op GL GR names
  · rw [if_pos hs, if_pos hs]
    simp only
    rw [expandSides_eq hL hR (sidesOK_ellipsis hs)]
    cases ellCount GL ndim <;> rfl
  · rw [if_neg hs, if_neg hs]

/-- patterns that are not well formed are rejected -/
theorem prepare_bad {pattern : Str} (hell : '…' ∉ pattern) (h : ¬ ∃ GL GR, IsPattern pattern GL GR) (op : OpKind)
    (names : List Str) (ndim : Nat) :
    ((∃ l r, pattern = l ++ arrow ++ r ∧ ¬ arrow <:+: l ∧ ¬ arrow <:+: r) ∧
        ∀ so, prepareRecipe so pattern op names ndim = .error .einops) ∨
    ((¬ ∃ l r, pattern = l ++ arrow ++ r ∧ ¬ arrow <:+: l ∧ ¬ arrow <:+: r) ∧
        ∀ so, prepareRecipe so pattern op names ndim = .error .value) := by
  unfold prepareRecipe
  rcases hs : splitArrow pattern with e | ⟨l, r⟩
  · right
    refine ⟨splitArrow_error_iff.1 ⟨e, hs⟩, fun so => ?_⟩
    rw [splitArrow_err hs]
  · left
    refine ⟨⟨l, r, splitArrow_iff.1 hs⟩, fun so => ?_⟩
    obtain ⟨rfl, h1, h2⟩ := splitArrow_iff.1 hs
    simp only [List.mem_append, not_or] at hell
    simp only
    rcases hl : parseExpression 0 false false l with e | pl
    · simp only; rw [parseExpression_err 0 false false hl]
    · simp only
      rcases hr : parseExpression 1 false false r with e | pr
      · simp only; rw [parseExpression_err 1 false false hr]
      · obtain ⟨GL, hGL, _⟩ := (parseExpression_iff 0 false false l hell.1.1 _).1 hl
        obtain ⟨GR, hGR, _⟩ := (parseExpression_iff 1 false false r hell.2 _).1 hr
        exact absurd ⟨GL, GR, l, r, rfl, hGL, hGR⟩ h

/-- Preparation of a well formed pattern: the recipe of the two sides, or EinopsError. -/
theorem prepare_cases {pattern : Str} {GL GR : List Elem} (h : IsPattern pattern GL GR) (op : OpKind)
    (names : List Str) (ndim : Nat) :
    (∃ ex, ExpandedWF ex ∧ Prepared op GL GR names ndim ex.left ex.rght ∧ namesOK ex names ∧
      ∀ so, prepareRecipe so pattern op names ndim = .ok (recipeOf so ex names)) ∨
    ((¬ ∃ L R, Prepared op GL GR names ndim L R) ∧ ∀ so, prepareRecipe so pattern op names ndim = .error .einops) := by
  obtain ⟨_, l, r, _, hL, hR⟩ := isPattern_split h
  by_cases hs : SidesOK op GL GR names
  swap
  · right
    refine ⟨fun ⟨L, R, hp⟩ => hs hp.sides, fun so => ?_⟩
    rw [prepare_pattern h, if_neg hs]
  have hE := sidesOK_ellipsis hs
  rcases hc : ellCount GL ndim with _ | n
  · right
    refine ⟨?_, fun so => ?_⟩
    · rintro ⟨L, R, hp⟩
      obtain ⟨n, hn, _⟩ := (groups_iff hL hE ndim L R).1 hp.groups
      rw [hc] at hn; cases hn
    · rw [prepare_pattern h, if_pos hs, hc]
  · have hwf := exOf_wf hL hR n
    by_cases hb : namesOK (exOf GL GR n) names ∧ OneUnknown (exOf GL GR n).left names
    · left
      refine ⟨exOf GL GR n, hwf, ⟨hs, (namesOK_iff hL hR n names).1 hb.1,
        (groups_iff hL hE ndim _ _).2 ⟨n, hc, rfl, rfl⟩, hb.2⟩, hb.1, fun so => ?_⟩
      rw [prepare_pattern h, if_pos hs, hc]
      exact (buildRecipe_eq so _ hwf names).1 hb
    · right
      refine ⟨?_, fun so => ?_⟩
      · rintro ⟨L, R, hp⟩
        obtain ⟨m, hm, rfl, rfl⟩ := (groups_iff hL hE ndim L R).1 hp.groups
        rw [hc] at hm
        cases hm
        exact hb ⟨(namesOK_iff hL hR n names).2 hp.keywords, hp.unknowns⟩
      · rw [prepare_pattern h, if_pos hs, hc]
        exact (buildRecipe_eq so _ hwf names).2 hb

/-- the groups are determined by the pattern and the number of dimensions -/
theorem Groups.unique {pattern : Str} {GL GR : List Elem} (h : IsPattern pattern GL GR) (hE : EllipsisOK GL GR)
    {ndim : Nat} {L R L' R' : List (List Axis)} (h1 : Groups GL GR ndim L R) (h2 : Groups GL GR ndim L' R') :
    L = L' ∧ R = R' := by
  obtain ⟨_, l, r, _, hL, hR⟩ := isPattern_split h
  obtain ⟨n, hn, rfl, rfl⟩ := (groups_iff hL hE ndim L R).1 h1
  obtain ⟨m, hm, rfl, rfl⟩ := (groups_iff hL hE ndim L' R').1 h2
  rw [hn] at hm
  cases hm
  exact ⟨rfl, rfl⟩

end Einops
