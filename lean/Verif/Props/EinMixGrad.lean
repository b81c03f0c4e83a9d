import Verif.Proofs.Documented
import Verif.Proofs.EinMixGrad
import Verif.Props.Adjoint
import Verif.Props.EinMixLaws

/-!
# C87: gradients of `EinMix`

`⟨y, g⟩ = ⟨x, z⟩` for the result `y` and every `g` says that `z` is the gradient for the input `x` when `g` is the gradient for
the result; in the same way for the weight and the bias.
-/

namespace Einops

universe u

section
variable {α : Type u} [CommSemiring α] [PyUnicode] {so : Nat → SetOrder} {l r weight : Str} {bias : Option Str}
  {kw : List (Str × Size)} {GL GR GW GB : List Elem} {m : EinMix α} {call : Layer α → Tensor α → Py (Tensor α)}
  {f : Str → List (Tensor α) → Py (Tensor α)} {L R : List (List Axis)} {len : AxisMap} {x w g : Tensor α} {b : Tensor α}

omit [CommSemiring α] in
theorem LegalMix.nodup_left {pattern : Str} {shape : List Nat}
    (h : LegalMix so pattern weight bias kw m shape GL GR GW GB L R len) : L.flatten.Nodup := by
  obtain ⟨l, r, -, hl, -⟩ := h.written
  obtain ⟨n, -, rfl, -⟩ := h.groups
  exact side_flatten_nodup hl 0 n

omit [CommSemiring α] in
theorem no_numbers {G : List Elem} (hu : OnlyUnits G) {side n s i v : Nat} :
    Axis.anon s i v ∉ (spread (ellAxes n) (denote side 0 G)).flatten := by
  intro h
  have h0 := anon_side h
  rw [denote_units (s' := side + 1) (k' := 0) hu] at h
  have h1 := anon_side h
  omega

omit [CommSemiring α] in
/-- with the lengths of all names given, all is determined -/
theorem determinate_given {G G' : List Elem} {t : Str} {kw' : List (Str × Size)} (ht : IsSide false false t G)
    (hk : GivesLengths G G' len kw') (hpar : ∀ ws, Elem.paren ws ∈ G → dots ∉ ws) {side n : Nat} :
    Determinate (spread (ellAxes n) (denote side 0 G)) (kw'.map Prod.fst) len := by
  rintro g hg ⟨a, ha, h1⟩
  rcases group_cases (side_no_ell ht) hpar hg with ⟨c, _, rfl⟩ | h
  · simp only [List.mem_singleton] at ha
    subst ha
    rw [List.filter_cons_of_neg (by simp [h1])]
    simp [groupSize]
  · rcases h a ha with ⟨v, h2, h3, h4, rfl⟩ | ⟨i, v, rfl⟩
    · simp only [isKnown, decide_eq_false_iff_not] at h1
      exact absurd ((hk.names v).2 ⟨name_of_word (ht.words_ok v h2) h3 h4, List.mem_append_left _ h2⟩) h1
    · cases h1

/-- **C87** The gradient of `EinMix('l -> r', weight_shape)` with respect to its input is the layer `EinMix('r -> l',
weight_shape)` with the same weight: if every axis of the input is in the output or the weight and the ellipsis is not in
parentheses, this layer can be made (with the lengths as sizes) and called. -/
theorem C87_input (hl : IsSide false false l GL) (hr : IsSide false false r GR)
    (h : LegalMix so (l ++ "->".toList ++ r) weight none kw m x.shape GL GR GW GB L R len)
    (hin : ∀ v ∈ axisWords GL, v ∈ sideWords GR ∨ v ∈ sideWords GW)
    (hpar : ∀ ws, Elem.paren ws ∈ GR → dots ∉ ws)
    (hfan : ∀ v ∈ sideWords GW, v ∉ sideWords GL → len (.str v) ≠ 0)
    (hrank : dots ∈ sideWords GR → R.length < GR.length + 7) :
    (∃ kw', GivesLengths GR GL len kw') ∧ ∀ (so' : Nat → SetOrder) (kw' : List (Str × Size)), GivesLengths GR GL len kw' →
      ∃ m' : EinMix α, makeEinMix so' (r ++ "->".toList ++ l) weight none kw' = .ok m' ∧ m'.weightShape = m.weightShape ∧
        ∀ (call call' : Layer α → Tensor α → Py (Tensor α)) (f : Str → List (Tensor α) → Py (Tensor α)), LayerCall call →
          LayerCall call' → EinsumLawful f → ∀ w g : Tensor α, w.shape = m.weightShape → g.shape = R.map (groupSize len) →
          ∃ y z : Tensor α, y.shape = g.shape ∧ z.shape = x.shape ∧ m.forward call f w none x = .ok y ∧
            m'.forward call' f w none g = .ok z ∧ y.dot g = x.dot z := by
  refine ⟨exists_lengths _ _ _, fun so' kw' hk => ?_⟩
  obtain ⟨hs, hu, hlet, hmade⟩ := h.parts
  obtain ⟨r1, r2, r3, r4⟩ := h.weight_read
  obtain ⟨n, hn, hL, hR, hlen⟩ := h.groups
  have hpat' : IsPattern (r ++ "->".toList ++ l) GR GL := ⟨r, l, rfl, hr, hl⟩
  have hname : ∀ {G : List Elem} {t : Str}, IsSide false false t G → ∀ v ∈ nameWords G, IsName false v := by
    intro G t ht v hv
    obtain ⟨h1, h2, h3⟩ := mem_nameWords.1 hv
    exact name_of_word (ht.words_ok v h1) h3 h2
  have hkey : ∀ v, v ∈ kw'.map Prod.fst ↔ v ∈ nameWords GR ∨ v ∈ nameWords GL := by
    intro v
    rw [hk.names, List.mem_append]
    constructor
    · rintro ⟨h1, h2⟩
      have h3 : ¬ IsNumber v := isName_not_number false h1
      have h4 : v ≠ dots := isName_ne_dots h1
      exact h2.imp (fun h => mem_nameWords.2 ⟨h, h3, h4⟩) (fun h => mem_nameWords.2 ⟨h, h3, h4⟩)
    · rintro (h1 | h1)
      · exact ⟨hname hr v h1, .inl (mem_nameWords.1 h1).1⟩
      · exact ⟨hname hl v h1, .inr (mem_nameWords.1 h1).1⟩
  have hwname : ∀ v ∈ sideWords GW, v ∈ nameWords GR ∨ v ∈ nameWords GL := by
    intro v hv
    have h3 : v ≠ dots := by rintro rfl; exact hs.weight_fixed hv
    rcases hs.weight_used v (mem_axisWords.2 ⟨hv, hu v hv⟩) with h1 | h1
    · exact .inr (mem_nameWords.2 ⟨h1, hu v hv, h3⟩)
    · exact .inl (mem_nameWords.2 ⟨h1, hu v hv, h3⟩)
  have hsides : EinmixSides GR GL GW (kw'.map Prod.fst) := by
    refine ⟨hin, hs.weight_fixed, hs.ellipsis_both.symm, hpar, hs.units_right, hs.units_left, hs.units_weight,
      hs.weight_flat, ?_, ?_, ?_, ?_⟩
    · intro ws hws
      rw [List.filter_eq_nil_iff.2]
      · simp
      · intro v hv
        have hv' : v ∈ sideWords GR := List.mem_flatMap.2 ⟨_, hws, hv⟩
        simp only [decide_eq_true_eq, not_and, not_not]
        intro h1
        exact (hkey v).2 (.inl (mem_nameWords.2 ⟨hv', h1, by rintro rfl; exact hpar ws hws hv⟩))
    · exact fun v hv => (hkey v).2 (hwname v (mem_axisWords.1 hv).1)
    · intro v hv
      rcases (hkey v).1 hv with h1 | h1
      · exact .inl h1
      · obtain ⟨h2, h3, h4⟩ := mem_nameWords.1 h1
        exact (hin v (mem_axisWords.2 ⟨h2, h3⟩)).imp (fun h => mem_nameWords.2 ⟨h, h3, h4⟩)
          (fun h => mem_nameWords.2 ⟨h, h3, h4⟩)
    · exact fun v hv => (hs.weight_used v hv).symm
  have hmark : ellipsisStr ∉ kw'.map Prod.fst := by
    intro hc
    rcases (hkey _).1 hc with h1 | h1
    · exact ne_ell hr (mem_nameWords.1 h1).1 rfl
    · exact ne_ell hl (mem_nameWords.1 h1).1 rfl
  have hval : ∀ v s, (v, s) ∈ kw' → (len (.str v) : Int) = s.val := fun v s hvs => hk.value _ hvs
  obtain ⟨m', hm', -⟩ := (C30_outcome (α := α) (so := so') (bias := none) hmark (fun s hs => by cases hs) hk.int.nodup hpat'
    h.weight_written hsides).2.2.2.2.2 hu (fun s hs => by cases hs)
    (fun v s h1 h2 h3 => by
      have := hval v s h3
      have := hfan v h1 h2
      omega)
    (fun v s h1 _ => by have := hval v s h1; omega)
    (by
      unfold LettersOK at hlet ⊢
      refine (distinct_mono ?_).trans hlet
      intro a ha
      simp only [List.mem_append] at ha ⊢
      tauto)
  have hlegal : LegalMix so' (r ++ "->".toList ++ l) weight none kw' m' (R.map (groupSize len)) GR GL GW GB R L len := by
    refine ⟨hmark, hk.int, hpat', h.weight_written, fun t ht => (by cases ht), hm', ?_, ?_, ?_, .inl ?_⟩
    · refine ⟨n, fun hd => hn (fun h => hd (hs.ellipsis_both.1 h)), ?_, ?_, by rw [List.length_map]⟩
      · rw [hR, denote_units hs.units_right]
      · rw [hL, denote_units hs.units_left]
    · refine ⟨rfl, hval, fun side i v hc => ?_⟩
      rw [hL, hR] at hc
      rcases List.mem_append.1 hc with hc | hc
      · exact absurd hc (no_numbers hs.units_right)
      · exact absurd hc (no_numbers hs.units_left)
    · rw [hR]
      exact determinate_given hr hk hpar
    · rw [List.length_map]; exact hrank
  refine ⟨m', hm', ?_, fun call call' f hcall hcall' hf w g hw hg => ?_⟩
  · rw [r3]
    exact (LegalMix.weight_read (x := ⟨R.map (groupSize len), List.replicate _ 0, List.length_replicate⟩) hlegal).2.2.1
  · have hw' : w.shape = m'.weightShape := by
      rw [hw, r3]
      exact (LegalMix.weight_read (x := g) (by rw [hg]; exact hlegal)).2.2.1.symm
    obtain ⟨y, h1, h2⟩ := h.result (b := none) hcall hf hw (by rw [hmade.params.no_bias rfl]; rfl)
    have hlegal' : LegalMix so' (r ++ "->".toList ++ l) weight none kw' m' g.shape GR GL GW GB R L len := by
      rw [hg]; exact hlegal
    obtain ⟨z, h3, h4⟩ := hlegal'.result (b := none) hcall' hf hw' (by
      obtain ⟨-, -, -, hmade'⟩ := hlegal'.parts
      rw [hmade'.params.no_bias rfl]; rfl)
    exact ⟨y, z, h2.1.trans hg.symm, h4.1.trans h.fits.shape_eq.symm, h1, h3,
      Mixes.adjoint_input h.nodup_left h.nodup h.fits.shape_eq hg h2 h4⟩

/-- **C87** The gradient with respect to the weight is a contraction of the input and the gradient `g`, both with their axes
written apart (`x'` and `g'`). -/
theorem C87_weight_formula {pattern : Str} (h : LegalMix so pattern weight none kw m x.shape GL GR GW GB L R len)
    (hcall : LayerCall call) (hf : EinsumLawful f) (hw : w.shape = m.weightShape) (hg : g.shape = R.map (groupSize len))
    {x' g' z : Tensor α} (hx' : Moves len L (L.flatten.map (fun a => [a])) x x')
    (hg' : Moves len R (R.flatten.map (fun a => [a])) g g')
    (hz : Contracts len [L.flatten, R.flatten] ((sideWords GW).map Axis.str) [x', g'] z) :
    ∃ y, y.shape = g.shape ∧ m.forward call f w none x = .ok y ∧ z.shape = w.shape ∧ y.dot g = w.dot z := by
  obtain ⟨hs, hu, hlet, hmade⟩ := h.parts
  obtain ⟨r1, r2, r3, r4⟩ := h.weight_read
  obtain ⟨y, h1, h2⟩ := h.result (b := none) hcall hf hw (by rw [hmade.params.no_bias rfl]; rfl)
  have hW : ((sideWords GW).map Axis.str).Nodup := by
    have := side_flatten_nodup h.weight_written 2 0
    rwa [flatten_syms hs.units_weight (fun v hv => ne_ell h.weight_written hv), r2] at this
  exact ⟨y, h2.1.trans hg.symm, h1, hz.1.trans (hw.trans r3).symm,
    Mixes.adjoint_weight h.nodup_left h.nodup hW hg (hw.trans r3) h2 hx' hg' hz⟩

/-- the names of a side, written apart -/
def apart (G : List Elem) : List Elem := (nameWords G).map Elem.bare

omit [CommSemiring α] in
theorem apart_words (G : List Elem) : sideWords (apart G) = nameWords G := by
  unfold apart sideWords
  induction nameWords G with
  | nil => rfl
  | cons a t ih => rw [List.map_cons, List.flatMap_cons, ih]; rfl

omit [CommSemiring α] in
/-- a side without ellipsis and its names written apart -/
theorem apart_groups {G : List Elem} {t : Str} (ht : IsSide false false t G) (hu : OnlyUnits G) (hd : dots ∉ sideWords G)
    (side side' n n' : Nat) :
    (spread (ellAxes n) (denote side 0 G)).flatten = (nameWords G).map Axis.str ∧
    spread (ellAxes n') (denote side' 0 (apart G)) = ((nameWords G).map Axis.str).map (fun a => [a]) ∧
    (apart G).map readElem = ((nameWords G).map ESym.name).map some := by
  have hne : ∀ v ∈ sideWords G, v ≠ ellipsisStr := fun v hv => ne_ell ht hv
  have hnd : ∀ v ∈ nameWords G, v ≠ dots := fun v hv => (mem_nameWords.1 hv).2.2
  have hread : (apart G).map readElem = ((nameWords G).map ESym.name).map some := by
    unfold apart
    rw [List.map_map, List.map_map]
    apply List.map_congr_left
    intro v hv
    obtain ⟨h1, h2, h3⟩ := mem_nameWords.1 hv
    simp [readElem, readWord, h2, h3]
  have hax : ∀ (k : Nat) (ws : List Str), symAxes k (ws.map ESym.name) = ws.map Axis.str := by
    intro k ws
    induction ws with
    | nil => rfl
    | cons a t ih => simp [symAxes, ih]
  have hnm : ∀ (ws : List Str), symNames (ws.map ESym.name) = ws := by
    intro ws
    induction ws with
    | nil => rfl
    | cons a t ih => simpa [symNames] using ih
  refine ⟨?_, ?_, hread⟩
  · rw [flatten_syms hu hne]
    have : sideSyms G = (nameWords G).map ESym.name := by
      unfold sideSyms nameWords
      rw [List.filter_eq_self.2 (fun v hv => by
        have := (mem_axisWords.1 hv).1
        simp only [decide_eq_true_eq]
        rintro rfl
        exact hd this)]
      apply List.map_congr_left
      intro v hv
      have := (mem_axisWords.1 hv).1
      unfold symOf
      rw [if_neg (by rintro rfl; exact hd this)]
    rw [this, hax]
  · rw [spread_syms hread (by rw [hnm]; exact fun hm => hne _ (mem_nameWords.1 hm).1 rfl), hax]

omit [CommSemiring α] in
/-- `rearrange` writes the axes apart -/
theorem rearrange_apart {E : ElemOps α} {bk : Backend α} (hbk : Modelled E bk) (o : SetOrder) {G : List Elem} {t s : Str}
    (ht : IsSide false false t G) (hs : IsSide false false s (apart G)) (hu : OnlyUnits G) (hd : dots ∉ sideWords G)
    {side : Nat} {kw' : List (Str × Size)} (hk : GivesLengths G [] len kw') {v : Tensor α}
    (hv : v.shape = (spread (ellAxes 0) (denote side 0 G)).map (groupSize len)) :
    ∃ v', rearrange bk o (.one v) (t ++ "->".toList ++ s) kw' = .ok v' ∧
      Moves len (spread (ellAxes 0) (denote side 0 G))
        ((spread (ellAxes 0) (denote side 0 G)).flatten.map (fun a => [a])) v v' := by
  obtain ⟨a1, a2, -⟩ := apart_groups ht hu hd 0 1 0 0
  have hwords : ∀ w, ¬ IsNumber w → (w ∈ sideWords (apart G) ↔ w ∈ sideWords G) := by
    intro w hw
    rw [apart_words, mem_nameWords]
    exact ⟨fun h => h.1, fun h => ⟨h, hw, by rintro rfl; exact hd h⟩⟩
  have hsub : ∀ w ∈ sideWords (apart G), ¬ IsNumber w := fun w hw => by
    rw [apart_words] at hw; exact (mem_nameWords.1 hw).2.1
  rw [denote_units (s' := 0) (k' := 0) hu] at hv ⊢
  have ha := accepted_full (op := .name "rearrange".toList) ht hs (kw := kw') (n := 0) (len := len) (shape := v.shape) (by
    rw [SidesOK, if_pos rfl]
    refine ⟨⟨fun h => absurd ((hwords _ dots_not_number).1 h) hd, fun ws hws hc => hd (List.mem_flatMap.2 ⟨_, hws, hc⟩)⟩, hu,
      fun w hw hn => absurd hn (hsub w hw), fun w hw hn => (hwords w hn).2 hw, fun w hw hn => (hwords w hn).1 hw⟩) (fun _ => rfl)
    ⟨hk.int, fun w => by
      rw [hk.names]
      simp only [List.mem_append, sideWords, List.flatMap_nil, List.not_mem_nil, or_false]
      constructor
      · exact fun h => ⟨h.1, .inl h.2⟩
      · exact fun h => ⟨h.1, h.2.elim id (hwords w (isName_not_number false h.1)).1⟩, hk.value⟩
    (fun side i v hm => by
      rcases List.mem_append.1 hm with hm | hm
      · exact absurd hm (no_numbers hu)
      · rw [a2] at hm; simp at hm) hv
  rw [a2] at ha
  rw [a1]
  obtain ⟨v', h1, h2⟩ := ha.moves (red := .name "rearrange".toList) hbk.lawful hk.int (ha.move_sub (.inl rfl))
  exact ⟨v', h1 o, h2⟩

/-- **C87** The gradient with respect to the weight of a layer without ellipsis:
`einsum(rearrange(x, 'l -> l1'), rearrange(g, 'r -> r1'), 'l1, r1 -> weight_shape')`, with `l1` and `r1` the names of `l` and
`r` without parentheses and units. -/
theorem C87_weight {l1 r1 : Str} (hl : IsSide false false l GL) (hr : IsSide false false r GR)
    (hl1 : IsSide false false l1 (apart GL)) (hr1 : IsSide false false r1 (apart GR)) (hd : dots ∉ sideWords GL)
    (h : LegalMix so (l ++ "->".toList ++ r) weight none kw m x.shape GL GR GW GB L R len) (hcall : LayerCall call)
    (hf : EinsumLawful f) (hw : w.shape = m.weightShape) (hg : g.shape = R.map (groupSize len)) {E : ElemOps α}
    {bk : Backend α} (hbk : Modelled E bk) (o : SetOrder) {kl kr : List (Str × Size)} (hkl : GivesLengths GL [] len kl)
    (hkr : GivesLengths GR [] len kr) :
    ∃ y x' g' z : Tensor α, y.shape = g.shape ∧ m.forward call f w none x = .ok y ∧
      rearrange bk o (.one x) (l ++ "->".toList ++ l1) kl = .ok x' ∧
      rearrange bk o (.one g) (r ++ "->".toList ++ r1) kr = .ok g' ∧
      einsum f [.tensor x', .tensor g', .str (l1 ++ ",".toList ++ r1 ++ "->".toList ++ weight)] = .ok z ∧
      z.shape = w.shape ∧ y.dot g = w.dot z := by
  obtain ⟨hs, hu, hlet, hmade⟩ := h.parts
  obtain ⟨w1, w2, w3, w4⟩ := h.weight_read
  obtain ⟨n, hn, hL, hR, hlen⟩ := h.groups
  obtain rfl := hn hd
  have hd' : dots ∉ sideWords GR := fun hc => hd (hs.ellipsis_both.2 hc)
  obtain ⟨x', hx1, hx2⟩ := rearrange_apart hbk o hl hl1 hs.units_left hd hkl (v := x) (side := 0) (by rw [h.fits.shape_eq, hL])
  obtain ⟨g', hg1, hg2⟩ := rearrange_apart hbk o hr hr1 hs.units_right hd' hkr (v := g) (side := 1) (by rw [hg, hR])
  obtain ⟨a1, -, a3⟩ := apart_groups hl hs.units_left hd 0 0 0 0
  obtain ⟨c1, -, c3⟩ := apart_groups hr hs.units_right hd' 1 0 0 0
  rw [← hL] at a1 hx2
  rw [← hR] at c1 hg2
  have hax : ∀ (ws : List Str), symAxes 0 (ws.map ESym.name) = ws.map Axis.str := by
    intro ws
    induction ws with
    | nil => rfl
    | cons a t ih => simp [symAxes, ih]
  have hnm : ∀ (ws : List Str), symNames (ws.map ESym.name) = ws := by
    intro ws
    induction ws with
    | nil => rfl
    | cons a t ih => simpa [symNames] using ih
  have hsides : EinsumSides (l1 ++ ",".toList ++ r1 ++ "->".toList ++ weight) [apart GL, apart GR] GW :=
    ⟨[l1, r1], weight, by simp, by simp [List.intercalate],
      .cons (isSide_weaken hl1 _ _) (.cons (isSide_weaken hr1 _ _) .nil), isSide_weaken h.weight_written _ _⟩
  have hW : ((sideWords GW).map Axis.str).Nodup := by
    have := side_flatten_nodup h.weight_written 2 0
    rwa [flatten_syms hs.units_weight (fun v hv => ne_ell h.weight_written hv), w2] at this
  have hnotell : ∀ ws : List Str, ESym.ell ∉ ws.map ESym.name := by intro ws; simp
  have hfit : EinsumFits len 0 [(nameWords GL).map ESym.name, (nameWords GR).map ESym.name] (sideSyms GW) [x', g'] := by
    refine ⟨by simp, .cons ?_ (.cons ?_ .nil), by rw [w2]; exact hW, ?_, ?_⟩
    · rw [hx2.1, singles_size, a1, hax]
    · rw [hg2.1, singles_size, c1, hax]
    · intro v hv
      rw [symNames_side] at hv
      obtain ⟨h5, h6, h7⟩ := mem_nameWords.1 hv
      rcases hs.weight_used v (mem_axisWords.2 ⟨h5, h6⟩) with h8 | h8
      · exact ⟨(nameWords GL).map ESym.name, by simp, by rw [hnm]; exact mem_nameWords.2 ⟨h8, h6, h7⟩⟩
      · exact ⟨(nameWords GR).map ESym.name, by simp, by rw [hnm]; exact mem_nameWords.2 ⟨h8, h6, h7⟩⟩
    · rw [ell_mem_side]
      simp [hs.weight_fixed]
  have h52 : distinct ([(nameWords GL).map ESym.name, (nameWords GR).map ESym.name].flatMap symNames) ≤ 52 := by
    refine (distinct_mono (t := nameWords GL ++ nameWords GR ++ nameWords GW) ?_).trans (hlet.trans (by decide))
    simp only [List.flatMap_cons, List.flatMap_nil, List.append_nil, hnm]
    intro a ha
    exact List.mem_append_left _ ha
  obtain ⟨z, hz1, hz2⟩ := einsum_contracts hf ⟨_, _, hsides, .cons a3 (.cons c3 .nil), w1⟩ h52 hfit
  simp only [List.map_cons, List.map_nil, hax, w2] at hz2
  obtain ⟨y, y1, y2, y3, y4⟩ := C87_weight_formula h hcall hf hw hg hx2 hg2 (by rw [a1, c1]; exact hz2)
  exact ⟨y, x', g', z, y1, y2, hx1, hg1, hz1, y3, y4⟩

/-- the dimensions of the bias: the bias axes, and `1` for the other names of the output -/
def biasSide (GR GB : List Elem) : List Elem :=
  (nameWords GR).map (fun v => .bare (if v ∈ sideWords GB then v else "1".toList))

omit [CommSemiring α] in
theorem biasSide_groups {t : Str} (ht : IsSide false false t GR) (side k n : Nat) :
    spread (ellAxes n) (denote side k (biasSide GR GB)) =
      (nameWords GR).map (fun v => if v ∈ sideWords GB then [Axis.str v] else []) := by
  unfold biasSide
  have hall : ∀ v ∈ nameWords GR, v ≠ dots ∧ ¬ IsNumber v ∧ v ≠ ellipsisStr := fun v hv =>
    ⟨(mem_nameWords.1 hv).2.2, (mem_nameWords.1 hv).2.1, ne_ell ht (mem_nameWords.1 hv).1⟩
  revert hall
  generalize nameWords GR = ws
  intro hall
  induction ws generalizing k with
  | nil => rfl
  | cons v ws ih =>
    have ih := ih (k + 1) (fun w h => hall w (List.mem_cons_of_mem _ h))
    obtain ⟨h1, h2, h3⟩ := hall v (List.mem_cons_self ..)
    rw [List.map_cons, List.map_cons]
    by_cases hv : v ∈ sideWords GB
    · rw [if_pos hv, if_pos hv, denote, if_neg h1, spread, ih]
      simp [wordAxes, h1, h2, h3]
    · have hone : IsNumber "1".toList ∧ decimalValue "1".toList = 1 := one_number
      have hd : ("1".toList : Str) ≠ dots := by decide
      rw [if_neg hv, if_neg hv, denote, if_neg hd, spread, ih]
      have : wordAxes side k "1".toList = [] := by
        unfold wordAxes
        rw [if_neg hd, if_pos hone.1, if_pos hone.2]
      rw [this]
      rfl

/-- **C87** The gradient with respect to the bias is `reduce(g, 'r -> s', 'sum')` where `s` has the bias axes in the order of
the output and `1` for its other names: the result with a bias is that of the same layer without bias and the bias. -/
theorem C87_bias {t s : Str} (hr : IsSide false false r GR) (hpar : ∀ ws, Elem.paren ws ∈ GR → dots ∉ ws)
    (h : LegalMix so (l ++ "->".toList ++ r) weight (some t) kw m x.shape GL GR GW GB L R len)
    (hs : IsSide false false s (biasSide GR GB)) {E : ElemOps α} {bk : Backend α} (hbk : Computes E "sum".toList bk)
    (hsum : ∀ vs, E.op "sum".toList vs = .ok vs.sum) (o : SetOrder) {kw' : List (Str × Size)}
    (hk : GivesLengths GR [] len kw') :
    ∃ m' : EinMix α, makeEinMix so (l ++ "->".toList ++ r) weight none kw = .ok m' ∧
      ∀ (call : Layer α → Tensor α → Py (Tensor α)) (f : Str → List (Tensor α) → Py (Tensor α)), LayerCall call →
        EinsumLawful f → ∀ w b g : Tensor α, w.shape = m.weightShape → some b.shape = m.biasShape →
        g.shape = R.map (groupSize len) →
        ∃ y y' z : Tensor α, y.shape = g.shape ∧ y'.shape = g.shape ∧ z.shape = b.shape ∧
          m.forward call f w (some b) x = .ok y ∧ m'.forward call f w none x = .ok y' ∧
          reduce bk o (.one g) (r ++ "->".toList ++ s) (.name "sum".toList) kw' = .ok z ∧
          y.dot g = y'.dot g + b.dot z := by
  obtain ⟨hpe, -⟩ := isPattern_split h.written
  obtain ⟨GL', GR', GW', h1, h2, hsd, hu, hbl, hfan, hlens, hlet, hmade⟩ := made_of_ok h.no_marker
    (isSide_no_special h.weight_written (by simp)) (fun s hs => isSide_no_special (h.bias_written s hs) (by simp)) h.ints.nodup
    hpe h.made
  obtain ⟨rfl, rfl⟩ := isPattern_unique h.written h1
  obtain rfl := IsSide.unique h.weight_written h2
  have hGB := h.bias_written t rfl
  obtain ⟨GB', hGB', hbok⟩ := hbl t rfl
  obtain rfl := IsSide.unique hGB hGB'
  obtain ⟨m', hm', hmade'⟩ := ((makeEinMix_outcome (α := α) so h.written h.weight_written h.ints.nodup hsd h.no_marker
    (bias := none) (fun s hs => by cases hs) rfl).2.2 hu (fun s hs => by cases hs)).2.2.2 hfan
    (fun v s h1 h2 => hlens v s h1 (.inl (h2.resolve_right (by rintro ⟨_, _, h, -⟩; cases h)))) hlet
  have hlegal : LegalMix so (l ++ "->".toList ++ r) weight none kw m' x.shape GL GR GW GB L R len := by
    refine ⟨h.no_marker, h.ints, h.written, h.weight_written, fun t ht => (by cases ht), hm', h.groups, h.fits, h.determined, ?_⟩
    refine h.rank.imp id (fun hp => ⟨?_, ?_⟩)
    · rcases hmade'.pre with h3 | ⟨_, _, -, -, -, h3⟩
      · exact h3.1
      · rcases hmade.pre with h4 | ⟨_, _, h4, -⟩
        · rw [h4.2] at h3; cases h3
        · rw [hp.1] at h4; cases h4
    · rcases hmade'.post with h3 | ⟨_, _, -, -, -, h3⟩
      · exact h3.1
      · rcases hmade.post with h4 | ⟨_, _, h4, -⟩
        · rcases h3 with h3 | ⟨ws, h3, h5⟩
          · rw [h4.2.1] at h3; cases h3
          · exact absurd h5 (h4.2.2 ws h3)
        · rw [hp.2] at h4; cases h4
  refine ⟨m', hm', fun call f hcall hf w b g hw hb hg => ?_⟩
  obtain ⟨y, y1, y2⟩ := h.result (b := some b) hcall hf hw hb
  have hwm : m'.weightShape = m.weightShape := by
    rw [h.weight_read.2.2.1, hlegal.weight_read.2.2.1]
  obtain ⟨y', y3, y4⟩ := hlegal.result (b := none) hcall hf (hw.trans hwm.symm) (by rw [hmade'.params.no_bias rfl]; rfl)
  obtain ⟨n, hn, hL, hR, hlen⟩ := h.groups
  set B := (nameWords GR).map (fun v => if v ∈ sideWords GB then [Axis.str v] else []) with hB
  have hbg : ∀ side k n, spread (ellAxes n) (denote side k (biasSide GR GB)) = B := fun side k n => biasSide_groups hr side k n
  have hbw : ∀ v ∈ sideWords (biasSide GR GB), IsNumber v ∧ decimalValue v = 1 ∨ v ∈ nameWords GR := by
    intro v hv
    obtain ⟨e, h3, h4⟩ := List.mem_flatMap.1 hv
    obtain ⟨v', h5, rfl⟩ := List.mem_map.1 h3
    simp only [Elem.words, List.mem_singleton] at h4
    split at h4
    · exact .inr (h4 ▸ h5)
    · exact .inl (h4 ▸ one_number)
  have hbn : ∀ v ∈ sideWords (biasSide GR GB), ¬ IsNumber v → v ∈ nameWords GR := fun v hv hn =>
    (hbw v hv).resolve_left (fun h => hn h.1)
  have ho : "sum".toList ∈ builtins := by decide
  have hir := red_names_isRed ho
  have hacc := accepted_full (op := .name "sum".toList) hr hs (kw := kw') (n := n) (len := len) (shape := g.shape) (by
      rw [SidesOK, if_neg hir.1, if_neg hir.2]
      refine ⟨fun s hs => by cases hs; exact ho, ⟨fun hd => ?_, hpar⟩, ?_, ?_⟩
      · exact absurd rfl (mem_nameWords.1 (hbn _ hd dots_not_number)).2.2
      · intro v hv hnum
        rcases hbw v hv with h3 | h3
        · exact h3.2
        · exact absurd hnum (mem_nameWords.1 h3).2.1
      · exact fun v hv hnum => (mem_nameWords.1 (hbn v hv hnum)).1)
    (fun hd => hn (fun hc => hd (hsd.ellipsis_both.1 hc)))
    ⟨hk.int, fun v => by
      rw [hk.names]
      simp only [List.mem_append]
      constructor
      · exact fun h3 => ⟨h3.1, .inl (h3.2.resolve_right (by simp [sideWords]))⟩
      · refine fun h3 => ⟨h3.1, .inl (h3.2.elim id fun h4 => (mem_nameWords.1 (hbn v h4 (isName_not_number false h3.1))).1)⟩,
      hk.value⟩
    (fun side i v hm => by
      rcases List.mem_append.1 hm with hm | hm
      · exact absurd hm (no_numbers hsd.units_right)
      · rw [hbg, hB] at hm
        obtain ⟨G, h3, h4⟩ := List.mem_flatten.1 hm
        obtain ⟨v', h5, rfl⟩ := List.mem_map.1 h3
        split at h4 <;> simp at h4)
    (by rw [hg, hR, denote_units hsd.units_right])
  rw [hbg, denote_units (s' := 1) (k' := 0) hsd.units_right, ← hR] at hacc
  obtain ⟨z, z1, z2⟩ := hacc.sums hbk hsum hk.int o
  have hBm : ∀ a ∈ B.flatten, a ∈ R.flatten := by
    intro a ha
    obtain ⟨G, h3, h4⟩ := List.mem_flatten.1 ha
    obtain ⟨v', h5, rfl⟩ := List.mem_map.1 h3
    split at h4
    · simp only [List.mem_singleton] at h4
      subst h4
      rw [hR, flatten_syms hsd.units_right (fun v hv => ne_ell hr hv), mem_symAxes]
      exact .inr ⟨v', by rw [symNames_side]; exact h5, rfl⟩
    · cases h4
  have hbs : b.shape = B.map (groupSize len) := by
    obtain ⟨bs, h3, h4⟩ := hmade.params.bias t GB rfl hGB
    rw [h3] at hb
    obtain rfl := Option.some.inj hb
    rw [hB, List.map_map]
    generalize nameWords GR = ws at h4 ⊢
    generalize b.shape = bs at h4 ⊢
    clear * - h4 h
    induction h4 with
    | nil => rfl
    | cons h5 _ ih =>
      rw [List.map_cons, ← ih]
      congr 1
      rcases h5 with ⟨h6, s, h7, h8⟩ | ⟨h6, h7⟩
      · have := h.fits.kw_eq _ _ h7
        simp only [Function.comp, if_pos h6, groupSize, List.map_cons, List.map_nil, List.prod_cons, List.prod_nil, mul_one]
        omega
      · simp [h6, h7, groupSize]
  refine ⟨y, y', z, y2.1.trans hg.symm, y4.1.trans hg.symm, z2.1.trans hbs.symm, y1, y3, z1, ?_⟩
  set W := (sideWords GW).map Axis.str with hW
  set T := (R.flatten ++ (L.flatten ++ W)).dedup with hT
  rw [y2.dot (T := T) hg h.nodup (List.nodup_dedup _) (fun a => by rw [hT, List.mem_dedup, List.mem_append, List.mem_append]),
    y4.dot (T := T) hg h.nodup (List.nodup_dedup _) (fun a => by rw [hT, List.mem_dedup, List.mem_append, List.mem_append]),
    ← sum_bias h.nodup hacc.nodup.2 hBm hbs hsum z2]
  simp only [biasAt, zero_mul, List.map_const', List.sum_replicate, nsmul_zero, add_zero]
  congr 2
  apply List.map_congr_left
  intro e _
  congr 1
  rw [valueAt_entry, hB, List.map_map]
  congr 1
  apply List.map_congr_left
  intro v _
  simp only [Function.comp]
  split <;> simp [groupPos]

end

/-! ### Examples -/

section
attribute [local instance] asciiUnicode

def gradX : Tensor ℤ := ⟨[2, 4, 1], [1, 2, 3, 4, 5, 6, 7, 8], rfl⟩
def gradW : Tensor ℤ := ⟨[2, 2, 3], [1, 0, 2, -1, 3, 1, 1, 5, 0, 2, -2, 4], rfl⟩
def gradG : Tensor ℤ := ⟨[2, 6], [1, 4, -2, 0, 7, 3, 2, 2, 1, 0, -1, 5], rfl⟩
def gradB : Tensor ℤ := ⟨[1, 3, 1], [10, 20, 30], rfl⟩
def gradKw : List (Str × Size) := [kwInt "h" 2, kwInt "c" 2, kwInt "d" 3]
def gradLeft : List Elem := [word "t", .paren ["h".toList, "c".toList], word "1"]
def gradRight : List Elem := [word "h", .paren ["d".toList, "t".toList]]
def gradWeight : List Elem := [word "h", word "c", word "d"]

/-- the layer of the examples -/
def gradMix (bias : Option Str) : Py (EinMix ℤ) :=
  makeEinMix (fun _ => idOrder) "t (h c) 1 -> h (d t)".toList "h c d".toList bias gradKw

def gradLen : AxisMap := fun a => if a = .str "d".toList then 3 else 2

theorem grad_left : IsSide false false "t (h c) 1 ".toList gradLeft := isSide_of (by decide) (by decide) (by decide) (by decide)
theorem grad_right : IsSide false false " h (d t)".toList gradRight := isSide_of (by decide) (by decide) (by decide) (by decide)

theorem grad_legal {bias : Option Str} {m : EinMix ℤ} (hb : ∀ t, bias = some t → IsSide false false t [word "d"])
    (h : gradMix bias = .ok m) :
    LegalMix (fun _ => idOrder) ("t (h c) 1 ".toList ++ "->".toList ++ " h (d t)".toList) "h c d".toList bias gradKw m gradX.shape
      gradLeft gradRight gradWeight [word "d"] [[.str "t".toList], [.str "h".toList, .str "c".toList], []]
      [[.str "h".toList], [.str "d".toList, .str "t".toList]] gradLen := by
  refine ⟨by decide, ⟨by decide, by decide⟩, ⟨_, _, rfl, grad_left, grad_right⟩, isSide_of (by decide) (by decide) (by decide) (by decide), hb, h,
    ⟨0, fun _ => rfl, by decide, by decide, rfl⟩, ⟨by decide, ?_, ?_⟩, ?_, .inl (fun h => absurd h (by decide))⟩
  · intro n s h
    simp only [gradKw, List.mem_cons, List.not_mem_nil, or_false, kwInt, Prod.mk.injEq] at h
    rcases h with ⟨rfl, rfl⟩ | ⟨rfl, rfl⟩ | ⟨rfl, rfl⟩ <;> decide
  · intro side i v h
    exact absurd h (by simp)
  · intro g hg hu
    simp only [List.mem_cons, List.not_mem_nil, or_false] at hg
    rcases hg with rfl | rfl | rfl <;> decide

-- C87: the layer for the gradient of the input, and its hypotheses
example : ∃ m : EinMix ℤ, gradMix none = .ok m ∧ (∃ kw', GivesLengths gradRight gradLeft gradLen kw') ∧
    ∀ so' kw', GivesLengths gradRight gradLeft gradLen kw' →
      ∃ m' : EinMix ℤ, makeEinMix so' " h (d t)->t (h c) 1 ".toList "h c d".toList none kw' = .ok m' ∧
        ∃ y z, m.forward (Layer.forwardTorch intOps) refEinsum gradW none gradX = .ok y ∧
          m'.forward (Layer.forwardTorch intOps) refEinsum gradW none gradG = .ok z ∧ y.dot gradG = gradX.dot z := by
  obtain ⟨m, h1, h2⟩ : ∃ m : EinMix ℤ, gradMix none = .ok m ∧ m.weightShape = [2, 2, 3] := ⟨_, rfl, rfl⟩
  have h := C87_input grad_left grad_right (x := gradX) (grad_legal (fun t ht => by cases ht) h1) (by decide)
    (by intro ws h; simp [gradRight, word] at h; subst h; decide) (by decide) (fun h => absurd h (by decide))
  refine ⟨m, h1, h.1, fun so' kw' hk => ?_⟩
  obtain ⟨m', h3, -, h4⟩ := h.2 so' kw' hk
  obtain ⟨y, z, -, -, h5, h6, h7⟩ := h4 _ _ refEinsum (.inr ⟨intOps, rfl⟩) (.inr ⟨intOps, rfl⟩) refEinsum_lawful gradW gradG
    (by rw [h2]; rfl) (by decide)
  exact ⟨m', h3, y, z, h5, h6, h7⟩

-- C87: the numbers
example : ∃ m m' : EinMix ℤ, gradMix none = .ok m ∧
    makeEinMix (fun _ => idOrder) " h (d t)->t (h c) 1 ".toList "h c d".toList none (kwInt "t" 2 :: gradKw) = .ok m' ∧
    ∃ y z, m.forward (Layer.forwardTorch intOps) refEinsum gradW none gradX = .ok y ∧
      m'.forward (Layer.forwardTorch intOps) refEinsum gradW none gradG = .ok z ∧ y.dot gradG = 278 ∧ gradX.dot z = 278 :=
  ⟨_, _, rfl, rfl, _, _, rfl, rfl, by rfl, by rfl⟩

theorem grad_kl : GivesLengths gradLeft [] gradLen [kwInt "t" 2, kwInt "h" 2, kwInt "c" 2] := by
  refine ⟨⟨by decide, by decide⟩, fun v => ?_, by decide⟩
  rw [gradLeft]
  constructor
  · intro h
    simp only [List.map_cons, List.map_nil, List.mem_cons, List.not_mem_nil, or_false, kwInt] at h
    rcases h with rfl | rfl | rfl <;> decide
  · rintro ⟨h, h'⟩
    simp only [sideWords, word, List.flatMap_cons, List.flatMap_nil, Elem.words, List.mem_append, List.mem_cons,
      List.not_mem_nil, or_false] at h'
    rcases h' with rfl | (rfl | rfl) | rfl
    · decide
    · decide
    · decide
    · revert h; decide

theorem grad_kr : GivesLengths gradRight [] gradLen [kwInt "h" 2, kwInt "d" 3, kwInt "t" 2] := by
  refine ⟨⟨by decide, by decide⟩, fun v => ?_, by decide⟩
  rw [gradRight]
  constructor
  · intro h
    simp only [List.map_cons, List.map_nil, List.mem_cons, List.not_mem_nil, or_false, kwInt] at h
    rcases h with rfl | rfl | rfl <;> decide
  · rintro ⟨h, h'⟩
    simp only [sideWords, word, List.flatMap_cons, List.flatMap_nil, Elem.words, List.mem_append, List.mem_cons,
      List.not_mem_nil, or_false] at h'
    rcases h' with rfl | (rfl | rfl) <;> decide

-- C87: the gradient of the weight
example : ∃ m : EinMix ℤ, gradMix none = .ok m ∧ ∃ y x' g' z : Tensor ℤ,
    m.forward (Layer.forwardTorch intOps) refEinsum gradW none gradX = .ok y ∧
    rearrange (numpyBackend intOps true) idOrder (.one gradX) "t (h c) 1 ->t h c".toList
      [kwInt "t" 2, kwInt "h" 2, kwInt "c" 2] = .ok x' ∧
    rearrange (numpyBackend intOps true) idOrder (.one gradG) " h (d t)->h d t".toList
      [kwInt "h" 2, kwInt "d" 3, kwInt "t" 2] = .ok g' ∧
    einsum refEinsum [.tensor x', .tensor g', .str "t h c,h d t->h c d".toList] = .ok z ∧ y.dot gradG = gradW.dot z := by
  obtain ⟨m, h1, h2⟩ : ∃ m : EinMix ℤ, gradMix none = .ok m ∧ m.weightShape = [2, 2, 3] := ⟨_, rfl, rfl⟩
  obtain ⟨y, x', g', z, -, h3, h4, h5, h6, -, h7⟩ := C87_weight (l1 := "t h c".toList) (r1 := "h d t".toList) (x := gradX)
    (w := gradW) (g := gradG) grad_left grad_right (isSide_of (by decide) (by decide) (by decide) (by decide))
    (isSide_of (by decide) (by decide) (by decide) (by decide)) (by decide) (grad_legal (fun t ht => by cases ht) h1)
    (.inr ⟨intOps, rfl⟩) refEinsum_lawful (by rw [h2]; rfl) (by decide) (.numpy true) idOrder grad_kl grad_kr
  exact ⟨m, h1, y, x', g', z, h3, h4, h5, h6, h7⟩

-- C87: the gradient of the bias
example : ∃ m m' : EinMix ℤ, gradMix (some "d".toList) = .ok m ∧ gradMix none = .ok m' ∧ ∃ y y' z,
    m.forward (Layer.forwardTorch intOps) refEinsum gradW (some gradB) gradX = .ok y ∧
    m'.forward (Layer.forwardTorch intOps) refEinsum gradW none gradX = .ok y' ∧
    reduce (numpyBackend intOps true) idOrder (.one gradG) " h (d t)->1 d 1".toList (.name "sum".toList) [kwInt "d" 3] = .ok z ∧
    y.dot gradG = y'.dot gradG + gradB.dot z ∧ gradB.dot z = 490 :=
  ⟨_, _, rfl, rfl, _, _, _, rfl, rfl, rfl, by rfl, by rfl⟩

example : ∃ m m' : EinMix ℤ, gradMix (some "d".toList) = .ok m ∧ gradMix none = .ok m' ∧ ∃ y y' z,
    m.forward (Layer.forwardTorch intOps) refEinsum gradW (some gradB) gradX = .ok y ∧
    m'.forward (Layer.forwardTorch intOps) refEinsum gradW none gradX = .ok y' ∧
    reduce (numpyBackend intOps true) idOrder (.one gradG) " h (d t)->1 d 1".toList (.name "sum".toList)
      [kwInt "h" 2, kwInt "d" 3, kwInt "t" 2] = .ok z ∧ y.dot gradG = y'.dot gradG + gradB.dot z := by
  obtain ⟨m, h1, h2, h3⟩ : ∃ m : EinMix ℤ, gradMix (some "d".toList) = .ok m ∧ m.weightShape = [2, 2, 3] ∧
    m.biasShape = some [1, 3, 1] := ⟨_, rfl, rfl, rfl⟩
  obtain ⟨m', h4, h5⟩ := C87_bias (x := gradX) (s := "1 d 1".toList) (E := intOps) grad_right
    (by intro ws h; simp [gradRight, word] at h; subst h; decide)
    (grad_legal (fun t ht => by cases ht; exact isSide_of (by decide) (by decide) (by decide) (by decide)) h1)
    (isSide_of (by decide) (by decide) (by decide) (by decide)) (.numpy true) (fun _ => rfl) idOrder grad_kr
  obtain ⟨y, y', z, -, -, -, h6, h7, h8, h9⟩ := h5 _ refEinsum (.inr ⟨intOps, rfl⟩) refEinsum_lawful gradW gradB gradG
    (by rw [h2]; rfl) (by rw [h3]; rfl) (by decide)
  exact ⟨m, m', h1, h4, y, y', z, h6, h7, h8, h9⟩

-- an axis that is only in the input: the layer with exchanged sides is refused
example : (∃ m : EinMix ℤ, makeEinMix (fun _ => idOrder) "a b -> a".toList "a".toList none [kwInt "a" 2] = .ok m) ∧
    makeEinMix (α := ℤ) (fun _ => idOrder) "a -> a b".toList "a".toList none [kwInt "a" 2, kwInt "b" 3] = .error .einops :=
  ⟨⟨_, rfl⟩, rfl⟩

end

end Einops
