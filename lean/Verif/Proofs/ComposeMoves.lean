import Verif.Proofs.Compose

/-! `rearrange` and `repeat` in a row. -/

namespace Einops

universe u
variable {α : Type u} [PyUnicode]

/-- what the sides of a `rearrange` or `repeat` have in common -/
theorem move_sides {op : OpKind} (ho : isMove op) {GL GR : List Elem} {names : List Str} (h : SidesOK op GL GR names) :
    EllipsisOK GL GR ∧ OnlyUnits GL ∧ NamesWithin GL GR := by
  rcases ho with rfl | rfl
  · rw [SidesOK, if_pos rfl] at h
    exact ⟨h.ellipsis, h.units_left, h.left_in_right⟩
  · rw [SidesOK, if_neg (by decide), if_pos rfl] at h
    exact ⟨h.ellipsis, h.units_left, h.left_in_right⟩

/-- the direct call, given all lengths -/
theorem compose_repeat {op₁ op₂ : OpKind} (ho₁ : isMove op₁) (ho₂ : isMove op₂) {l m r : Str} {GL GM GR : List Elem}
    (hl : IsSide false false l GL) (hm : IsSide false false m GM) (hr : IsSide false false r GR)
    {kw₁ kw₂ kw₃ : List (Str × Size)} {shape shape' : List Nat} {L M R : List (List Axis)} {len : AxisMap}
    (h1 : Accepted op₁ (l ++ ['-', '>'] ++ m) kw₁ shape GL GM L M len)
    (h2 : Accepted op₂ (m ++ ['-', '>'] ++ r) kw₂ shape' GM GR M R len) (hk : GivesLengths GL GR len kw₃) :
    Accepted (.name "repeat".toList) (l ++ ['-', '>'] ++ r) kw₃ shape GL GR L R len := by
  obtain ⟨s1, u1, n1⟩ := move_sides ho₁ h1.prepared.sides
  obtain ⟨s2, u2, n2⟩ := move_sides ho₂ h2.prepared.sides
  have hs : SidesOK (.name "repeat".toList) GL GR (kw₃.map Prod.fst) := by
    rw [SidesOK, if_neg (by decide), if_pos rfl]
    refine ⟨⟨fun h => s1.1 (s2.1 h), s1.2⟩, u1, fun w hw hn => n2 w (n1 w hw hn) hn, fun w hw hn => ?_⟩
    by_cases hd : w = dots
    · subst hd
      exact .inl (s1.1 (s2.1 hw))
    · exact .inr ((hk.names w).2 ⟨name_of_word (hr.words_ok w hw) hd hn, List.mem_append_right _ hw⟩)
  have hR : Groups GL GR shape.length L R := by
    obtain ⟨n, hn, rfl, hM, hlen⟩ := h1.prepared.groups
    obtain ⟨n', hn', hM', hR', hlen'⟩ := h2.prepared.groups
    refine ⟨n, hn, rfl, ?_, hlen⟩
    by_cases hd : dots ∈ sideWords GR
    · have := (middle_groups hm u2 s2.2 hM hM' rfl).2 (s2.1 hd)
      rw [hR', this]
    · rw [hR', spread_no_dots (side_no_ell hr) hd n' n]
  obtain ⟨n, hn, rfl, rfl, hlen⟩ := hR
  refine accepted_full hl hr hs hn hk ?_ h1.fits.shape_eq
  intro side i v ha
  rcases List.mem_append.1 ha with ha | ha
  · exact h1.fits.number_eq side i v (List.mem_append_left _ ha)
  · exact h2.fits.number_eq side i v (List.mem_append_right _ ha)

/-- Two calls with an elementary middle side: lengths that serve both. -/
theorem common_len {op₁ op₂ : OpKind} (ho₁ : isMove op₁) (ho₂ : isMove op₂) {l m r : Str} {GL GM GR : List Elem}
    (hm : IsSide false false m GM) {kw₁ kw₂ : List (Str × Size)} {shape shape' : List Nat}
    {L M M' R : List (List Axis)} {len len' : AxisMap}
    (h1 : Accepted op₁ (l ++ ['-', '>'] ++ m) kw₁ shape GL GM L M len) (hsh : shape' = M.map (groupSize len))
    (h2 : Accepted op₂ (m ++ ['-', '>'] ++ r) kw₂ shape' GM GR M' R len') (he : Elementary GM) :
    ∃ len'', M' = M ∧ Accepted op₁ (l ++ ['-', '>'] ++ m) kw₁ shape GL GM L M len'' ∧
      Accepted op₂ (m ++ ['-', '>'] ++ r) kw₂ shape' GM GR M R len'' ∧ (∀ a ∈ L.flatten ++ M.flatten, len a = len'' a) ∧
      ∀ a ∈ M.flatten ++ R.flatten, len' a = len'' a := by
  obtain ⟨s2, u2, n2⟩ := move_sides ho₂ h2.prepared.sides
  have hMM : M' = M := by
    obtain ⟨n, hn, hL, hM, hlen⟩ := h1.prepared.groups
    obtain ⟨n', hn', hM', hR', hlen'⟩ := h2.prepared.groups
    refine (middle_groups hm u2 s2.2 hM hM' ?_).1
    rw [hlen', hsh, List.length_map]
  subst hMM
  have hML : ∀ a ∈ M'.flatten, len' a = len a := by
    refine elementary_len ?_ (by rw [← hsh, h2.fits.shape_eq])
    obtain ⟨n', hn', hM', hR', hlen'⟩ := h2.prepared.groups
    rw [hM']
    exact fun g hg => elementary_group he (side_no_ell hm) hg
  have hLM := h1.move_sub ho₁
  have e1 : ∀ a ∈ L.flatten ++ M'.flatten, len a = (fun a => if a ∈ M'.flatten then len a else len' a) a := by
    intro a ha
    have : a ∈ M'.flatten := (List.mem_append.1 ha).elim (hLM a) id
    simp only [if_pos this]
  have e2 : ∀ a ∈ M'.flatten ++ R.flatten, len' a = (fun a => if a ∈ M'.flatten then len a else len' a) a := by
    intro a ha
    by_cases h : a ∈ M'.flatten
    · simp only [if_pos h]; exact hML a h
    · simp only [if_neg h]
  exact ⟨fun a => if a ∈ M'.flatten then len a else len' a, rfl, h1.congr_len e1, h2.congr_len e2, e1, e2⟩

/-- what an accepted `reduce` call returns, in terms of any lengths it is accepted with -/
theorem reduce_of_accepted {E : ElemOps α} {b : Backend α} {so : SetOrder} {o : Str} (hc : Computes E o b)
    (ho : o ∈ builtins) {p : Str} {kw : List (Str × Size)} {G G' : List Elem} {A B : List (List Axis)}
    {len : AxisMap} {t t' : Tensor α} (hkw : IntKw kw) (hell : '…' ∉ p)
    (ha : Accepted (.name o) p kw t.shape G G' A B len) :
    reduce b so (.one t) p (.name o) kw = .ok t' ↔ (¬ Drops A B ∧ Moves len A B t t') ∨
      (Drops A B ∧ (o = "mean".toList → b.isFloat t = true) ∧ Reduces (E.op o) len A B t t') := by
  have hir := red_names_isRed ho
  have hlaw := hc.modelled.lawful
  constructor
  · intro he
    by_cases hd : Drops A B
    · refine .inr ⟨hd, ?_⟩
      have hf : o = "mean".toList → b.isFloat t = true := by
        intro hmean
        by_contra hfl
        subst hmean
        rw [ha.mean_error hlaw so hkw hd (by simpa using hfl)] at he
        cases he
      refine ⟨hf, (ha.reduces (red := .name o) hlaw so hkw hir hd (fun s k hk => ?_) t').1 he⟩
      simp only [reduceAxesE]
      rw [if_neg (not_not_intro (show _ ∈ reductionNames from ho)), if_neg, hc.reduce ho s k hk]
      rintro ⟨h9, h10⟩
      rw [hlaw.isFloat s t, hf h9] at h10
      cases h10
    · refine .inl ⟨hd, ?_⟩
      obtain ⟨t'', h5, h6⟩ := ha.moves (red := .name o) hlaw hkw (fun a hal => by
        by_contra hcc
        exact hd ⟨a, hal, hcc⟩)
      rw [h5 so] at he
      cases he
      exact h6
  · intro h
    exact (reduce_iff hlaw so hell hkw hir (hc.reduce ho) t').2 ⟨G, G', A, B, len, ha, h⟩

end Einops
