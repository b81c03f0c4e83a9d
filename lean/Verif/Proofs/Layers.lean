import Verif.Layers
import Verif.Proofs.Results
import Verif.Props.Operations

/-! Layers have the recipes of the functions. -/

namespace Einops

universe u

/-- the numbers of dimensions a layer accepts: that of the left side, up to 7 for the ellipsis -/
def LayerRank (GL : List Elem) (ndim : Nat) : Prop :=
  if dots ∈ sideWords GL then GL.length - 1 ≤ ndim ∧ ndim < GL.length - 1 + 8 else ndim = GL.length

theorem dictGet_mapE {β : Type} {f : Nat → Py β} {g : Nat → Py (Nat × β)} {l : List Nat} {m : List (Nat × β)}
    (hg : ∀ d, g d = (f d).map (fun r => (d, r))) (h : mapE g l = .ok m) (d : Nat) :
    (d ∈ l → ∃ r, f d = .ok r ∧ dictGet m d = some r) ∧ (d ∉ l → dictGet m d = none) := by
  induction l generalizing m with
  | nil => simp only [mapE, Except.ok.injEq] at h; subst h; simp [dictGet]
  | cons a l ih =>
    simp only [mapE, hg a] at h
    cases ha : f a with
    | error e => simp only [ha, Except.map] at h; cases h
    | ok r =>
      simp only [ha, Except.map] at h
      split at h
      · cases h
      · rename_i bs hbs
        cases h
        obtain ⟨h1, h2⟩ := ih hbs
        simp only [dictGet, List.mem_cons, not_or]
        constructor
        · rintro hd
          by_cases e : a = d
          · subst e; exact ⟨r, ha, by simp⟩
          · rw [if_neg e]; exact h1 (hd.resolve_left (fun h => e h.symm))
        · rintro ⟨h3, h4⟩
          rw [if_neg (fun h => h3 h.symm)]; exact h2 h4

theorem mapE_error_mem {ε β γ : Type} {f : β → Except ε γ} {l : List β} {e : ε} (h : mapE f l = .error e) :
    ∃ a ∈ l, f a = .error e := by
  induction l with
  | nil => cases h
  | cons a l ih =>
    simp only [mapE] at h
    cases ha : f a with
    | error e' => rw [ha] at h; cases h; exact ⟨a, by simp, ha⟩
    | ok r =>
      rw [ha] at h
      simp only at h
      split at h
      · rename_i e' he; cases h; obtain ⟨b, hb, h2⟩ := ih he; exact ⟨b, by simp [hb], h2⟩
      · cases h

section
variable [PyUnicode]

theorem isPattern_unique {pattern : Str} {GL GR GL' GR' : List Elem} (h : IsPattern pattern GL GR)
    (h' : IsPattern pattern GL' GR') : GL = GL' ∧ GR = GR' := by
  obtain ⟨-, l, r, hs, hl, hr⟩ := isPattern_split h
  obtain ⟨-, l', r', hs', hl', hr'⟩ := isPattern_split h'
  rw [hs] at hs'
  cases hs'
  exact ⟨hl.unique hl', hr.unique hr'⟩

theorem layerDims_describe {GL : List Elem} (d : Nat) : d ∈ layerDims (describe 0 GL) ↔ LayerRank GL d := by
  unfold layerDims LayerRank
  rw [show (describe 0 GL).composition.length = GL.length from denote_length 0 0 GL,
    show (describe 0 GL).hasEllipsis = decide (dots ∈ sideWords GL) from rfl]
  by_cases h : dots ∈ sideWords GL
  · rw [if_pos h, if_pos (by simpa using h)]
    simp only [List.mem_map, List.mem_range]
    constructor
    · rintro ⟨e, h1, rfl⟩; omega
    · rintro ⟨h1, h2⟩; exact ⟨d - (GL.length - 1), by omega, by omega⟩
  · rw [if_neg h, if_neg (by simpa using h)]
    simp

omit [PyUnicode] in
theorem layerDims_ne_nil (e : ParsedExpression) : ∃ d, d ∈ layerDims e := by
  unfold layerDims
  split
  · exact ⟨_, List.mem_map.2 ⟨0, by simp, rfl⟩⟩
  · exact ⟨_, List.mem_singleton.2 rfl⟩

/-- the recipes of a layer -/
theorem prepareAllDims_ok {so : Nat → SetOrder} {pattern : Str} (hell : '…' ∉ pattern) {op : OpKind} {names : List Str}
    {m : List (Nat × TransformRecipe)} (h : prepareAllDims so pattern op names = .ok m) :
    ∃ GL GR, IsPattern pattern GL GR ∧
      (∀ d, LayerRank GL d → ∃ r, dictGet m d = some r ∧ prepareRecipe (so d) pattern op names d = .ok r) ∧
      ∀ d, ¬ LayerRank GL d → dictGet m d = none := by
  unfold prepareAllDims at h
  cases hs : splitArrow pattern with
  | error e => rw [hs] at h; cases h
  | ok lr =>
    obtain ⟨l, r⟩ := lr
    rw [hs] at h
    simp only at h
    cases hp : parseExpression 0 false false l with
    | error e => rw [hp] at h; cases h
    | ok left =>
      rw [hp] at h
      simp only at h
      have key := fun d => dictGet_mapE (f := fun d => prepareRecipe (so d) pattern op names d)
        (fun d => by cases prepareRecipe (so d) pattern op names d <;> rfl) h d
      obtain ⟨d, hd⟩ := layerDims_ne_nil left
      obtain ⟨r0, hr0, -⟩ := (key d).1 hd
      have hpat : ∃ GL GR, IsPattern pattern GL GR := by
        by_contra hno
        rcases prepare_bad hell hno op names d with ⟨-, he⟩ | ⟨-, he⟩ <;> rw [he] at hr0 <;> cases hr0
      obtain ⟨GL, GR, hpat⟩ := hpat
      obtain ⟨-, l', r', hs', hl', hr'⟩ := isPattern_split hpat
      rw [hs] at hs'
      cases hs'
      have hlell : '…' ∉ l := isSide_no_special hl' (by simp)
      have e := (parseExpression_iff 0 false false l hlell _).2 ⟨GL, hl', rfl⟩
      rw [hp] at e
      cases e
      refine ⟨GL, GR, hpat, ?_, ?_⟩
      · intro d hd
        obtain ⟨r, h1, h2⟩ := (key d).1 ((layerDims_describe d).2 hd)
        exact ⟨r, h2, h1⟩
      · intro d hd
        exact (key d).2 (fun h => hd ((layerDims_describe d).1 h))

omit [PyUnicode] in
theorem oneUnknown_spread {c : List CompAxis} (hc : noGroupEll c) {names : List Str} {ell : List Axis} :
    OneUnknown (spread ell c) names ↔ ∀ g, CompAxis.group g ∈ c → (g.filter (fun a => !isKnown names a)).length ≤ 1 := by
  induction c with
  | nil => simp [spread, OneUnknown]
  | cons a c ih =>
    have ih' := ih (fun g hg => hc g (by simp [hg]))
    unfold OneUnknown at *
    cases a with
    | ell =>
      simp only [spread, List.mem_append, List.mem_cons]
      constructor
      · intro h g hg
        exact ih'.1 (fun g hg => h g (.inr hg)) g (by simpa using hg)
      · intro h g hg
        rcases hg with hg | hg
        · obtain ⟨b, -, rfl⟩ := List.mem_map.1 hg
          exact (List.length_filter_le _ _).trans (by simp)
        · exact ih'.2 (fun g hg => h g (.inr hg)) g hg
    | group g0 =>
      have h0 := flatMap_sub_id (ell := ell) (hc g0 (by simp))
      simp only [spread, h0, List.mem_cons, CompAxis.group.injEq]
      constructor
      · rintro h g (rfl | hg)
        · exact h g (.inl rfl)
        · exact ih'.1 (fun g hg => h g (.inr hg)) g hg
      · rintro h g (rfl | hg)
        · exact h g (.inl rfl)
        · exact ih'.2 (fun g hg => h g (.inr hg)) g hg

/-- whether a recipe can be prepared does not depend on the number of dimensions for the ellipsis -/
theorem prepared_rank {pattern : Str} {GL GR : List Elem} (h : IsPattern pattern GL GR) {op : OpKind} {names : List Str}
    {d d' : Nat} (hd' : LayerRank GL d') (hp : ∃ L R, Prepared op GL GR names d L R) :
    ∃ L R, Prepared op GL GR names d' L R := by
  obtain ⟨L, R, hs, hk, hg, hu⟩ := hp
  obtain ⟨-, l, r, -, hL, hR⟩ := isPattern_split h
  have hE := sidesOK_ellipsis hs
  obtain ⟨n, hn, rfl, rfl⟩ := (groups_iff hL hE d L R).1 hg
  have hc : ∃ n', ellCount GL d' = some n' := by
    unfold ellCount
    unfold LayerRank at hd'
    split
    · rename_i h1
      rw [if_pos h1] at hd'
      rw [if_neg (by omega)]
      exact ⟨_, rfl⟩
    · rename_i h1
      rw [if_neg h1] at hd'
      rw [if_pos hd']
      exact ⟨_, rfl⟩
  obtain ⟨n', hn'⟩ := hc
  refine ⟨(exOf GL GR n').left, (exOf GL GR n').rght, hs, hk, (groups_iff hL hE d' _ _).2 ⟨n', hn', rfl, rfl⟩, ?_⟩
  have hng : noGroupEll (denote 0 0 GL) := denote_noGroupEll (side_no_ell hL) hE.2
  exact (oneUnknown_spread hng).2 ((oneUnknown_spread hng).1 hu)

/-- Construction of a layer fails exactly if the function call would, before looking at lengths. -/
theorem prepareAllDims_error {so : Nat → SetOrder} {pattern : Str} (hell : '…' ∉ pattern) {op : OpKind} {names : List Str}
    {e : PyErr} (h : prepareAllDims so pattern op names = .error e) :
    ∀ (so' : SetOrder) (d : Nat), (∀ GL GR, IsPattern pattern GL GR → LayerRank GL d) →
      prepareRecipe so' pattern op names d = .error e := by
  intro so' d hd
  unfold prepareAllDims at h
  by_cases hpat : ∃ GL GR, IsPattern pattern GL GR
  · obtain ⟨GL, GR, hpat⟩ := hpat
    obtain ⟨-, l, r, hs, hL, hR⟩ := isPattern_split hpat
    have hlell : '…' ∉ l := isSide_no_special hL (by simp)
    rw [hs] at h
    simp only [(parseExpression_iff 0 false false l hlell _).2 ⟨GL, hL, rfl⟩] at h
    obtain ⟨d0, hd0, h0⟩ := mapE_error_mem h
    rw [layerDims_describe] at hd0
    rcases prepare_cases hpat op names d0 with ⟨ex, -, -, -, hok⟩ | ⟨hno, herr⟩
    · rw [hok] at h0; cases h0
    · rw [herr] at h0
      cases h0
      rcases prepare_cases hpat op names d with ⟨ex, -, hp, -, -⟩ | ⟨-, herr'⟩
      · exact absurd (prepared_rank hpat hd0 ⟨_, _, hp⟩) hno
      · exact herr' so'
  · have hb := prepare_bad hell hpat op names d
    rcases hs : splitArrow pattern with e' | ⟨l, r⟩
    · rw [hs] at h
      cases h
      rcases hb with ⟨h1, -⟩ | ⟨-, h2⟩
      · exact absurd h1 (splitArrow_error_iff.1 ⟨e, hs⟩)
      · rw [h2, splitArrow_err hs]
    · rcases hb with ⟨-, h2⟩ | ⟨h1, -⟩
      · rw [h2]
        rw [hs] at h
        simp only at h
        cases hp : parseExpression 0 false false l with
        | error e' => rw [hp] at h; cases h; rw [parseExpression_err 0 false false hp]
        | ok left =>
          rw [hp] at h
          simp only at h
          obtain ⟨d0, -, h0⟩ := mapE_error_mem h
          rcases prepare_bad hell hpat op names d0 with ⟨-, h3⟩ | ⟨h3, -⟩
          · rw [h3] at h0; cases h0; rfl
          · exact absurd ⟨l, r, splitArrow_iff.1 hs⟩ h3
      · exact absurd ⟨l, r, splitArrow_iff.1 hs⟩ h1

end

end Einops
