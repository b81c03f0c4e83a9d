import Verif.Proofs.EinMixLaws
import Verif.Proofs.PackLaws
import Verif.Props.EinMix

/-!
# C68: laws of `EinMix`
-/

namespace Einops

universe u

section
variable {α : Type u} [CommSemiring α]

/-- the sum of two optional tensors, both present or both absent -/
inductive OptionSum : Option (Tensor α) → Option (Tensor α) → Option (Tensor α) → Prop
  | none : OptionSum .none .none .none
  | some (b b' : Tensor α) (h : b'.shape = b.shape) : OptionSum (.some b) (.some b') (.some (b.zipWith (· + ·) b' h))

theorem OptionSum.shapes {b b' s : Option (Tensor α)} (h : OptionSum b b' s) :
    b'.map Tensor.shape = b.map Tensor.shape ∧ s.map Tensor.shape = b.map Tensor.shape := by
  cases h with
  | none => exact ⟨rfl, rfl⟩
  | some b b' h => exact ⟨congrArg Option.some h, rfl⟩

variable [PyUnicode]

theorem OptionSum.biasAt {b b' s : Option (Tensor α)} (h : OptionSum b b' s) (GR GB : List Elem) :
    biasAt GR GB s = fun e => biasAt GR GB b e + biasAt GR GB b' e := by
  funext e
  cases h with
  | none => simp [Einops.biasAt]
  | some b b' h => exact entry_zip_add h _

theorem biasAt_smul (k : α) (b : Option (Tensor α)) (GR GB : List Elem) :
    biasAt GR GB (b.map (Tensor.map (k * ·))) = fun e => k * biasAt GR GB b e := by
  funext e
  cases b with
  | none => simp [Einops.biasAt]
  | some b => exact entry_map_mul k b _

variable {so : Nat → SetOrder} {pattern weight : Str} {bias : Option Str} {kw : List (Str × Size)}
  {GL GR GW GB : List Elem} {m : EinMix α} {call : Layer α → Tensor α → Py (Tensor α)}
  {f : Str → List (Tensor α) → Py (Tensor α)} {L R : List (List Axis)} {len : AxisMap} {x x' w w' : Tensor α}
  {b b' s : Option (Tensor α)}

/-- The layer `m` is made from these arguments and can be called with an input of this shape. -/
structure LegalMix (so : Nat → SetOrder) (pattern weight : Str) (bias : Option Str) (kw : List (Str × Size)) (m : EinMix α)
    (shape : List Nat) (GL GR GW GB : List Elem) (L R : List (List Axis)) (len : AxisMap) : Prop where
  no_marker : ellipsisStr ∉ kw.map Prod.fst
  ints : IntKw kw
  written : IsPattern pattern GL GR
  weight_written : IsSide false false weight GW
  bias_written : ∀ t, bias = some t → IsSide false false t GB
  made : makeEinMix so pattern weight bias kw = .ok m
  groups : Groups GL GR shape.length L R
  fits : Fits L R kw shape len
  determined : Determinate L (kw.map Prod.fst) len
  rank : (dots ∈ sideWords GL → shape.length < GL.length + 7) ∨ m.pre = none ∧ m.post = none

theorem LegalMix.result (h : LegalMix so pattern weight bias kw m x.shape GL GR GW GB L R len) (hcall : LayerCall call)
    (hf : EinsumLawful f) (hw : w.shape = m.weightShape) (hb : b.map Tensor.shape = m.biasShape) :
    ∃ y, m.forward call f w b x = .ok y ∧ Mixes len L ((sideWords GW).map Axis.str) R x w (biasAt GR GB b) y := by
  obtain ⟨y, hy⟩ := (C29_succeeds h.no_marker h.ints h.written h.weight_written h.bias_written h.made hcall hf h.groups h.fits
    hw hb h.determined).1 h.rank
  exact ⟨y, hy, C29_output h.no_marker h.ints h.written h.weight_written h.bias_written h.made hcall hf h.groups h.fits hw hb hy⟩

theorem LegalMix.nodup {shape : List Nat} (h : LegalMix so pattern weight bias kw m shape GL GR GW GB L R len) :
    R.flatten.Nodup := by
  obtain ⟨l, r, -, -, hr⟩ := h.written
  obtain ⟨n, -, -, rfl, -⟩ := h.groups
  exact side_flatten_nodup hr 1 n

/-- The layer is additive in the input and the bias together. -/
theorem C68_input (h : LegalMix so pattern weight bias kw m x.shape GL GR GW GB L R len) (hcall : LayerCall call)
    (hf : EinsumLawful f) (hw : w.shape = m.weightShape) (hb : b.map Tensor.shape = m.biasShape) (hs : OptionSum b b' s)
    (hx : x'.shape = x.shape) :
    ∃ y y', ∃ hy : y'.shape = y.shape, m.forward call f w b x = .ok y ∧ m.forward call f w b' x' = .ok y' ∧
      m.forward call f w s (x.zipWith (· + ·) x' hx) = .ok (y.zipWith (· + ·) y' hy) := by
  obtain ⟨y, h1, h2⟩ := h.result hcall hf hw hb
  obtain ⟨y', h3, h4⟩ := LegalMix.result (x := x') (b := b') (hx ▸ h) hcall hf hw (hs.shapes.1.trans hb)
  obtain ⟨z, h5, h6⟩ := LegalMix.result (x := x.zipWith (· + ·) x' hx) (b := s) h hcall hf hw (hs.shapes.2.trans hb)
  have hy : y'.shape = y.shape := h4.1.trans h2.1.symm
  refine ⟨y, y', hy, h1, h3, h5.trans (congrArg _ ?_)⟩
  rw [hs.biasAt] at h6
  exact h6.unique h.nodup (h2.add_input hx hy h4)

/-- The layer is additive in the weight and the bias together. -/
theorem C68_weight (h : LegalMix so pattern weight bias kw m x.shape GL GR GW GB L R len) (hcall : LayerCall call)
    (hf : EinsumLawful f) (hw : w.shape = m.weightShape) (hb : b.map Tensor.shape = m.biasShape) (hs : OptionSum b b' s)
    (hw' : w'.shape = w.shape) :
    ∃ y y', ∃ hy : y'.shape = y.shape, m.forward call f w b x = .ok y ∧ m.forward call f w' b' x = .ok y' ∧
      m.forward call f (w.zipWith (· + ·) w' hw') s x = .ok (y.zipWith (· + ·) y' hy) := by
  obtain ⟨y, h1, h2⟩ := h.result hcall hf hw hb
  obtain ⟨y', h3, h4⟩ := h.result (b := b') hcall hf (hw'.trans hw) (hs.shapes.1.trans hb)
  obtain ⟨z, h5, h6⟩ := h.result (w := w.zipWith (· + ·) w' hw') (b := s) hcall hf hw (hs.shapes.2.trans hb)
  have hy : y'.shape = y.shape := h4.1.trans h2.1.symm
  refine ⟨y, y', hy, h1, h3, h5.trans (congrArg _ ?_)⟩
  rw [hs.biasAt] at h6
  exact h6.unique h.nodup (h2.add_weight hw' hy h4)

/-- A factor in the input and the bias, or in the weight and the bias, comes out in the result. -/
theorem C68_scale (h : LegalMix so pattern weight bias kw m x.shape GL GR GW GB L R len) (hcall : LayerCall call)
    (hf : EinsumLawful f) (hw : w.shape = m.weightShape) (hb : b.map Tensor.shape = m.biasShape) (k : α) :
    ∃ y, m.forward call f w b x = .ok y ∧
      m.forward call f w (b.map (Tensor.map (k * ·))) (x.map (k * ·)) = .ok (y.map (k * ·)) ∧
      m.forward call f (w.map (k * ·)) (b.map (Tensor.map (k * ·))) x = .ok (y.map (k * ·)) := by
  have hb' : (b.map (Tensor.map (k * ·))).map Tensor.shape = m.biasShape := by
    rw [← hb, Option.map_map]; rfl
  obtain ⟨y, h1, h2⟩ := h.result hcall hf hw hb
  obtain ⟨z, h3, h4⟩ := LegalMix.result (x := x.map (k * ·)) h hcall hf hw hb'
  obtain ⟨z', h5, h6⟩ := h.result (w := w.map (k * ·)) hcall hf hw hb'
  rw [biasAt_smul] at h4 h6
  exact ⟨y, h1, h3.trans (congrArg _ (h4.unique h.nodup (h2.smul_input k))),
    h5.trans (congrArg _ (h6.unique h.nodup (h2.smul_weight k)))⟩

omit [CommSemiring α] in
/-- a flat side without numbers is a list of names and ellipses -/
theorem read_flat {G : List Elem} (h1 : ∀ ws, Elem.paren ws ∉ G) (h2 : ∀ w ∈ sideWords G, ¬ IsNumber w) :
    G.map readElem = (sideSyms G).map some := by
  have h3 : axisWords G = sideWords G := List.filter_eq_self.2 (fun w hw => by simpa using h2 w hw)
  unfold sideSyms
  rw [h3]
  clear h3
  induction G with
  | nil => rfl
  | cons e G ih =>
    have ih := ih (fun ws hw => h1 ws (by simp [hw])) (fun w hw => h2 w (by
      unfold sideWords at hw ⊢; rw [List.flatMap_cons]; exact List.mem_append_right _ hw))
    cases e with
    | paren ws => exact absurd (by simp) (h1 ws)
    | bare w =>
      have hw : ¬ IsNumber w := h2 w (by simp [sideWords, Elem.words])
      rw [List.map_cons, ih]
      unfold sideWords
      rw [List.flatMap_cons, Elem.words, List.singleton_append, List.map_cons, List.map_cons]
      congr 1
      simp only [readElem, readWord, symOf]
      split
      · rfl
      · first | rfl | rw [if_neg hw]

omit [CommSemiring α] in
theorem LegalMix.parts (h : LegalMix so pattern weight bias kw m x.shape GL GR GW GB L R len) :
    EinmixSides GL GR GW (kw.map Prod.fst) ∧ NoUnits GW ∧ LettersOK GL GR GW ∧ Made so GL GR GW bias kw m := by
  obtain ⟨hpe, l, r, -, hl, hr⟩ := isPattern_split h.written
  obtain ⟨GL', GR', GW', h1, h2, h3, h4, h5, -, -, h7, h6⟩ := made_of_ok h.no_marker (isSide_no_special h.weight_written (by simp))
    (fun s hs => isSide_no_special (h.bias_written s hs) (by simp)) h.ints.nodup hpe h.made
  obtain ⟨rfl, rfl⟩ := isPattern_unique h.written h1
  obtain rfl := IsSide.unique h.weight_written h2
  exact ⟨h3, h4, h7, h6⟩

omit [CommSemiring α] in
/-- the weight as a list of symbols -/
theorem LegalMix.weight_read (h : LegalMix so pattern weight bias kw m x.shape GL GR GW GB L R len) :
    GW.map readElem = (sideSyms GW).map some ∧ (∀ n, symAxes n (sideSyms GW) = (sideWords GW).map Axis.str) ∧
    m.weightShape = ((sideWords GW).map Axis.str).map len ∧ ellipsisStr ∉ symNames (sideSyms GW) := by
  obtain ⟨h1, h2, -, h3⟩ := h.parts
  refine ⟨read_flat h1.weight_flat h2, weight_axes h2 h1.weight_fixed, weight_dims h.fits.kw_eq h3.params.weight, ?_⟩
  rw [symNames_side]
  exact fun hm => ne_ell h.weight_written (mem_nameWords.1 hm).1 rfl

variable {E : ElemOps α} {bk : Backend α} {so' so'' : Nat → SetOrder} {weight' : Str} {m' : EinMix α} {GW' : List Elem}

/-- The order in which the axes of the weight are written makes no difference if the weight is rearranged accordingly. -/
theorem C68_weight_order (h : LegalMix so pattern weight bias kw m x.shape GL GR GW GB L R len)
    (h' : LegalMix so' pattern weight' bias kw m' x.shape GL GR GW' GB L R len)
    (hset : ∀ v, v ∈ sideWords GW ↔ v ∈ sideWords GW') (hbk : Modelled E bk) (o : SetOrder) (hcall : LayerCall call)
    (hf : EinsumLawful f) (hw : w.shape = m.weightShape) (hb : b.map Tensor.shape = m.biasShape)
    (hb' : b.map Tensor.shape = m'.biasShape) :
    ∃ w' y, rearrange bk o (.one w) (weight ++ "->".toList ++ weight') [] = .ok w' ∧ w'.shape = m'.weightShape ∧
      m.forward call f w b x = .ok y ∧ m'.forward call f w' b x = .ok y := by
  obtain ⟨r1, r2, r3, r4⟩ := h.weight_read
  obtain ⟨r1', r2', r3', -⟩ := h'.weight_read
  have hp : IsPattern (weight ++ "->".toList ++ weight') GW GW' := ⟨weight, weight', rfl, h.weight_written, h'.weight_written⟩
  have hset' : ∀ a, a ∈ sideSyms GW ↔ a ∈ sideSyms GW' := by
    intro a
    simp only [sideSyms, List.mem_map, mem_axisWords, hset]
  obtain ⟨n, e1, e2, hacc⟩ := accepted_of_read (x := w) (n := 0) (len := len) hp r1 r1' r4 hset'
    (by rw [hw, r3, r2])
  rw [r2] at hacc
  rw [r2'] at hacc
  obtain ⟨w', hr, hm1, hm2⟩ := hacc.moves (red := .name "rearrange".toList) hbk.lawful ⟨by simp, by simp⟩
    (by rw [singles_flatten, singles_flatten]; intro a ha; obtain ⟨v, hv, rfl⟩ := List.mem_map.1 ha
        exact List.mem_map_of_mem ((hset v).1 hv))
  rw [singles_size] at hm1
  rw [singles_flatten, singles_flatten] at hm2
  have hw' : w'.shape = m'.weightShape := hm1.trans r3'.symm
  obtain ⟨y, h1, h2⟩ := h.result hcall hf hw hb
  obtain ⟨y', h3, h4⟩ := h'.result hcall hf hw' hb'
  have hin : ∀ env, InRange len ((sideWords GW).map Axis.str) env ↔ InRange len ((sideWords GW').map Axis.str) env := by
    intro env
    constructor <;> intro hh a ha <;> obtain ⟨v, hv, rfl⟩ := List.mem_map.1 ha
    · exact hh _ (List.mem_map_of_mem ((hset v).2 hv))
    · exact hh _ (List.mem_map_of_mem ((hset v).1 hv))
  have hent : ∀ env : AxisMap, entry w (((sideWords GW).map Axis.str).map env) = entry w' (((sideWords GW').map Axis.str).map env) := by
    intro env
    by_cases henv : InRange len ((sideWords GW).map Axis.str) env
    · obtain ⟨v, h5, h6⟩ := hm2 env (fun a ha => (List.mem_append.1 ha).elim (henv a) ((hin env).1 henv a))
      rw [singles_at] at h5 h6
      rw [entry, entry, h5, h6]
    · have h5 : w.at? (((sideWords GW).map Axis.str).map env) = none := by
        by_contra hc
        obtain ⟨v, hv⟩ := Option.ne_none_iff_exists'.1 hc
        have := w.at?_some_inBounds hv
        rw [hw, r3, inBounds_map] at this
        exact henv this
      have h6 : w'.at? (((sideWords GW').map Axis.str).map env) = none := by
        by_contra hc
        obtain ⟨v, hv⟩ := Option.ne_none_iff_exists'.1 hc
        have := w'.at?_some_inBounds hv
        rw [hm1, inBounds_map] at this
        exact henv ((hin env).2 this)
      rw [entry, entry, h5, h6]
  refine ⟨w', y, hr o, hw', h1, h3.trans (congrArg _ ?_)⟩
  refine h4.unique h.nodup ?_
  rw [mixes_iff] at h2 ⊢
  refine ⟨h2.1, fun S hS hm env henv => ?_⟩
  rw [h2.2 S hS (fun a => ?_) env henv]
  · simp only [hent]
  · rw [hm]
    have : a ∈ (sideWords GW').map Axis.str ↔ a ∈ (sideWords GW).map Axis.str := by simp only [List.mem_map, hset]
    rw [this]

omit [CommSemiring α] in
theorem isSide_weaken {t : Str} {G : List Elem} (h : IsSide false false t G) (u d : Bool) : IsSide u d t G := by
  refine ⟨h.lexes, fun v hv => ?_, h.one_ellipsis, fun _ => (h.nodup rfl).sublist ?_⟩
  · rcases h.words_ok v hv with h | h | h
    · exact .inl h
    · exact .inr (.inl h)
    · exact .inr (.inr ⟨h.1, h.2.1, .inl (h.2.2.resolve_right (by simp))⟩)
  · apply List.monotone_filter_right
    intro v hv
    simp only [unrepeatable] at hv ⊢
    rw [Bool.and_eq_true] at hv
    simp [hv.1]

omit [CommSemiring α] in
theorem ell_mem_side {G : List Elem} : ESym.ell ∈ sideSyms G ↔ dots ∈ sideWords G := by
  unfold sideSyms
  rw [List.mem_map]
  constructor
  · rintro ⟨v, hv, h⟩
    unfold symOf at h
    split at h
    · next hd => exact hd ▸ (mem_axisWords.1 hv).1
    · cases h
  · exact fun h => ⟨dots, mem_axisWords.2 ⟨h, dots_not_number⟩, by simp [symOf]⟩

omit [PyUnicode] [CommSemiring α] in
theorem distinct_mono {s t : List Str} (h : s ⊆ t) : distinct s ≤ distinct t :=
  (List.subperm_of_subset (List.nodup_dedup s) (fun a ha => List.mem_dedup.2 (h (List.mem_dedup.1 ha)))).length_le

/-- Without parentheses, numbers and bias, the layer computes `einsum(x, weight, 'l, weight_shape -> r')`. -/
theorem C68_einsum {l r : Str} (h : LegalMix so (l ++ "->".toList ++ r) weight none kw m x.shape GL GR GW GB L R len)
    (hl : IsSide false false l GL) (hr : IsSide false false r GR)
    (hflat : ∀ ws, Elem.paren ws ∉ GL ∧ Elem.paren ws ∉ GR) (hnum : ∀ v ∈ sideWords GL ++ sideWords GR, ¬ IsNumber v)
    (hcall : LayerCall call) (hf : EinsumLawful f) (hw : w.shape = m.weightShape) :
    ∃ y, m.forward call f w none x = .ok y ∧
      einsum f [.tensor x, .tensor w, .str (l ++ ",".toList ++ weight ++ "->".toList ++ r)] = .ok y := by
  obtain ⟨hs, hu, hlet, hm⟩ := h.parts
  obtain ⟨r1, r2, r3, r4⟩ := h.weight_read
  have rl := read_flat (fun ws => (hflat ws).1) (fun v hv => hnum v (List.mem_append_left _ hv))
  have rr := read_flat (fun ws => (hflat ws).2) (fun v hv => hnum v (List.mem_append_right _ hv))
  have el : ellipsisStr ∉ symNames (sideSyms GL) := by
    rw [symNames_side]; exact fun hm => ne_ell hl (mem_nameWords.1 hm).1 rfl
  have er : ellipsisStr ∉ symNames (sideSyms GR) := by
    rw [symNames_side]; exact fun hm => ne_ell hr (mem_nameWords.1 hm).1 rfl
  obtain ⟨y, h1, h2⟩ := h.result (b := none) hcall hf hw (by rw [hm.params.no_bias rfl]; rfl)
  obtain ⟨n, hn, hL, hR, hlen⟩ := h.groups
  rw [spread_syms rl el] at hL
  rw [spread_syms rr er] at hR
  have hsides : EinsumSides (l ++ ",".toList ++ weight ++ "->".toList ++ r) [GL, GW] GR :=
    ⟨[l, weight], r, by simp, by simp [List.intercalate], .cons (isSide_weaken hl _ _) (.cons (isSide_weaken h.weight_written _ _) .nil),
      isSide_weaken hr _ _⟩
  have hfit : EinsumFits len n [sideSyms GL, sideSyms GW] (sideSyms GR) [x, w] := by
    refine ⟨by simp, .cons ?_ (.cons ?_ .nil), ?_, ?_, ?_⟩
    · rw [h.fits.shape_eq, hL, singles_size]
    · rw [hw, r3, r2]
    · have := h.nodup
      rwa [hR, singles_flatten] at this
    · intro v hv
      rw [symNames_side] at hv
      obtain ⟨h5, h6, h7⟩ := mem_nameWords.1 hv
      rcases hs.right_known v (mem_axisWords.2 ⟨h5, h6⟩) with h8 | h8
      · exact ⟨sideSyms GL, by simp, by rw [symNames_side]; exact mem_nameWords.2 ⟨h8, h6, h7⟩⟩
      · exact ⟨sideSyms GW, by simp, by rw [symNames_side]; exact mem_nameWords.2 ⟨h8, h6, h7⟩⟩
    · simp only [ell_mem_side, hs.ellipsis_both.symm, List.mem_cons, List.not_mem_nil, or_false, exists_eq_or_imp,
        exists_eq_left, hs.weight_fixed]
  have h52 : distinct ([sideSyms GL, sideSyms GW].flatMap symNames) ≤ 52 := by
    refine (distinct_mono (t := nameWords GL ++ nameWords GR ++ nameWords GW) ?_).trans (hlet.trans (by decide))
    simp only [List.flatMap_cons, List.flatMap_nil, List.append_nil, symNames_side]
    intro a ha
    simp only [List.mem_append] at ha ⊢
    tauto
  obtain ⟨y', h3, h4⟩ := einsum_contracts hf ⟨_, _, hsides, .cons rl (.cons r1 .nil), rr⟩ h52 hfit
  refine ⟨y, h1, h3.trans (congrArg _ (h4.unique hfit.nodup ?_))⟩
  rw [mixes_iff] at h2
  rw [contracts_iff]
  rw [hL, hR, singles_size, singles_flatten, singles_flatten] at h2
  simp only [List.map_cons, List.map_nil]
  rw [r2]
  refine ⟨h2.1, fun S hS hmem env henv => ?_⟩
  have h5 := h2.2 S hS (fun a => by rw [hmem]; simp) env henv
  rw [singles_pos] at h5
  rw [h5]
  simp only [singles_pos, biasAt, add_zero]
  congr 2
  funext e
  simp [termProd]

end

/-! ### Examples -/

section
attribute [local instance] asciiUnicode

/-- the layer of the example of C29 is legal, also with its weight axes in another order -/
theorem mix_legal {weight : String} {GW : List Elem} {m : EinMix Int} (h1 : IsSide false false weight.toList GW)
    (h2 : makeEinMix (fun _ => idOrder) "t (h c) ... -> (... 1 h) d t".toList weight.toList (some "d".toList)
      [kwInt "h" 2, kwInt "c" 3, kwInt "d" 2] = .ok m) :
    LegalMix (fun _ => idOrder) "t (h c) ... -> (... 1 h) d t".toList weight.toList (some "d".toList)
      [kwInt "h" 2, kwInt "c" 3, kwInt "d" 2] m [1, 6, 2] [word "t", .paren ["h".toList, "c".toList], word "..."]
      [.paren ["...".toList, "1".toList, "h".toList], word "d", word "t"] GW [word "d"]
      [[.str "t".toList], [.str "h".toList, .str "c".toList], ellAxes 1]
      [ellAxes 1 ++ [.str "h".toList], [.str "d".toList], [.str "t".toList]] mixLen := by
  refine ⟨by decide, ⟨by decide, by decide⟩, mix_pattern, h1, ?_, h2, ⟨1, fun h => absurd (by decide) h, by decide, by decide, rfl⟩,
    ⟨by decide, ?_, ?_⟩, ?_, .inl (fun _ => by decide)⟩
  · intro t ht
    cases ht
    exact isSide_of (by decide) (by decide) (by decide) (by decide)
  · intro n s h
    simp only [List.mem_cons, List.not_mem_nil, or_false, kwInt, Prod.mk.injEq] at h
    rcases h with ⟨rfl, rfl⟩ | ⟨rfl, rfl⟩ | ⟨rfl, rfl⟩ <;> decide
  · intro side i v h
    exact absurd h (by simp [ellAxes])
  · intro g hg hu
    simp only [List.mem_cons, List.not_mem_nil, or_false] at hg
    rcases hg with rfl | rfl | rfl <;> decide

/-- the layer itself -/
theorem mix_made : ∃ m : EinMix Int, mixEx = .ok m ∧ m.weightShape = [2, 3, 2] ∧ m.biasShape = some [1, 2, 1] := ⟨_, rfl, rfl, rfl⟩

theorem mix_side : IsSide false false "h c d".toList [word "h", word "c", word "d"] :=
  isSide_of (by decide) (by decide) (by decide) (by decide)

-- C68: additive in input and bias
example : ∃ m : EinMix Int, mixEx = .ok m ∧ ∃ y y', ∃ hy : y'.shape = y.shape,
    m.forward (Layer.forwardTorch intOps) refEinsum mixW (some mixB) mixX = .ok y ∧
    m.forward (Layer.forwardTorch intOps) refEinsum mixW (some ⟨[1, 2, 1], [7, 8], rfl⟩) (mixX.map (fun v => v * v)) = .ok y' ∧
    m.forward (Layer.forwardTorch intOps) refEinsum mixW (some (mixB.zipWith (· + ·) ⟨[1, 2, 1], [7, 8], rfl⟩ rfl))
      (mixX.zipWith (· + ·) (mixX.map (fun v => v * v)) rfl) = .ok (y.zipWith (· + ·) y' hy) := by
  obtain ⟨m, h1, h2, h3⟩ := mix_made
  exact ⟨m, h1, C68_input (x := mixX) (x' := mixX.map (fun v => v * v)) (w := mixW) (mix_legal mix_side h1) (.inr ⟨_, rfl⟩) refEinsum_lawful (by rw [h2]; rfl) (by rw [h3]; rfl)
    (.some mixB ⟨[1, 2, 1], [7, 8], rfl⟩ rfl) rfl⟩

-- C68: additive in weight and bias
example : ∃ m : EinMix Int, mixEx = .ok m ∧ ∃ y y', ∃ hy : y'.shape = y.shape,
    m.forward (Layer.forwardTorch intOps) refEinsum mixW (some mixB) mixX = .ok y ∧
    m.forward (Layer.forwardTorch intOps) refEinsum (mixW.map (fun v => v * v)) (some ⟨[1, 2, 1], [7, 8], rfl⟩) mixX = .ok y' ∧
    m.forward (Layer.forwardTorch intOps) refEinsum (mixW.zipWith (· + ·) (mixW.map (fun v => v * v)) rfl)
      (some (mixB.zipWith (· + ·) ⟨[1, 2, 1], [7, 8], rfl⟩ rfl)) mixX = .ok (y.zipWith (· + ·) y' hy) := by
  obtain ⟨m, h1, h2, h3⟩ := mix_made
  exact ⟨m, h1, C68_weight (x := mixX) (w' := mixW.map (fun v => v * v)) (w := mixW) (mix_legal mix_side h1) (.inr ⟨_, rfl⟩) refEinsum_lawful (by rw [h2]; rfl) (by rw [h3]; rfl)
    (.some mixB ⟨[1, 2, 1], [7, 8], rfl⟩ rfl) rfl⟩

-- C68: a factor
example : ∃ m : EinMix Int, mixEx = .ok m ∧ ∃ y,
    m.forward (Layer.forwardTorch intOps) refEinsum mixW (some mixB) mixX = .ok y ∧
    m.forward (Layer.forwardTorch intOps) refEinsum mixW (some (mixB.map (-3 * ·))) (mixX.map (-3 * ·)) = .ok (y.map (-3 * ·)) ∧
    m.forward (Layer.forwardTorch intOps) refEinsum (mixW.map (-3 * ·)) (some (mixB.map (-3 * ·))) mixX = .ok (y.map (-3 * ·)) := by
  obtain ⟨m, h1, h2, h3⟩ := mix_made
  exact ⟨m, h1, C68_scale (x := mixX) (b := some mixB) (mix_legal mix_side h1) (.inr ⟨_, rfl⟩) refEinsum_lawful (by rw [h2]; rfl)
    (by rw [h3]; rfl) (-3)⟩

/-- the layer with its weight written in another order -/
def mixEx2 : Py (EinMix Int) :=
  makeEinMix (fun _ => idOrder) "t (h c) ... -> (... 1 h) d t".toList " d  h c".toList (some "d".toList)
    [kwInt "h" 2, kwInt "c" 3, kwInt "d" 2]

-- C68: the order of the weight axes
example : ∃ m m' : EinMix Int, mixEx = .ok m ∧ mixEx2 = .ok m' ∧ ∃ w' y,
    rearrange (numpyBackend intOps true) idOrder (.one mixW) "h c d-> d  h c".toList [] = .ok w' ∧ w'.shape = m'.weightShape ∧
    m.forward (Layer.forwardTorch intOps) refEinsum mixW (some mixB) mixX = .ok y ∧
    m'.forward (Layer.forwardTorch intOps) refEinsum w' (some mixB) mixX = .ok y := by
  obtain ⟨m, h1, h2, h3⟩ := mix_made
  obtain ⟨m', h1', h3'⟩ : ∃ m' : EinMix Int, mixEx2 = .ok m' ∧ m'.biasShape = some [1, 2, 1] := ⟨_, rfl, rfl⟩
  exact ⟨m, m', h1, h1', C68_weight_order (x := mixX) (mix_legal mix_side h1)
    (mix_legal (weight := " d  h c") (GW := [word "d", word "h", word "c"]) (isSide_of (by decide) (by decide) (by decide) (by decide)) h1')
    (by intro v; simp [sideWords, word, Elem.words]; tauto) (.numpy true) idOrder
    (.inr ⟨_, rfl⟩) refEinsum_lawful (by rw [h2]; rfl) (by rw [h3]; rfl) (by rw [h3']; rfl)⟩

-- C68: a layer without parentheses is an `einsum`
example : ∃ m : EinMix Int,
    makeEinMix (fun _ => idOrder) "t a-> b t".toList "a b".toList none [kwInt "a" 3, kwInt "b" 2] = .ok m ∧ ∃ y,
    m.forward (Layer.forwardTorch intOps) refEinsum ⟨[3, 2], [1, 2, 3, 4, 5, 6], rfl⟩ none t23 = .ok y ∧
    einsum refEinsum [.tensor t23, .tensor ⟨[3, 2], [1, 2, 3, 4, 5, 6], rfl⟩, .str "t a,a b-> b t".toList] = .ok y := by
  obtain ⟨m, h1, h2⟩ : ∃ m : EinMix Int,
    makeEinMix (fun _ => idOrder) "t a-> b t".toList "a b".toList none [kwInt "a" 3, kwInt "b" 2] = .ok m ∧
      m.weightShape = [3, 2] := ⟨_, rfl, rfl⟩
  have hl : IsSide false false "t a".toList [word "t", word "a"] := isSide_of (by decide) (by decide) (by decide) (by decide)
  have hr : IsSide false false " b t".toList [word "b", word "t"] := isSide_of (by decide) (by decide) (by decide) (by decide)
  refine ⟨m, h1, C68_einsum (so := fun _ => idOrder) (l := "t a".toList) (r := " b t".toList) (weight := "a b".toList) (GB := [])
    (kw := [kwInt "a" 3, kwInt "b" 2]) (GW := [word "a", word "b"]) (x := t23)
    (L := [[.str "t".toList], [.str "a".toList]]) (R := [[.str "b".toList], [.str "t".toList]])
    (len := fun a => if a = .str "a".toList then 3 else 2)
    ⟨by decide, ⟨by decide, by decide⟩, ⟨_, _, rfl, hl, hr⟩, isSide_of (by decide) (by decide) (by decide) (by decide),
      (by simp), h1, ⟨0, fun _ => rfl, by decide, by decide, by decide⟩, ⟨by decide, ?_, ?_⟩, determinate_singles [.str "t".toList, .str "a".toList] _ _,
      .inl (fun _ => by decide)⟩ hl hr
    (by simp [word]) (by decide) (.inr ⟨_, rfl⟩) refEinsum_lawful (by rw [h2])⟩
  · intro n s h
    simp only [List.mem_cons, List.not_mem_nil, or_false, kwInt, Prod.mk.injEq] at h
    rcases h with ⟨rfl, rfl⟩ | ⟨rfl, rfl⟩ <;> decide
  · intro side i v h
    exact absurd h (by simp)

end

end Einops
