import Verif.Proofs.EinsumLengths
import Verif.Proofs.EinMixForward
import Verif.Proofs.Units

/-!
# `EinMix` and inputs of unexpected lengths
-/

namespace Einops

universe u
variable {α : Type u}

/-! ### adding the bias -/

theorem castDims_self {s t : List Nat} (hl : t.length = s.length) (h : ∀ p ∈ t.zip s, p.1 = 1 ∨ p.1 = p.2) :
    castDims s t = some s := by
  induction s generalizing t with
  | nil =>
    cases t with
    | nil => rfl
    | cons b t => simp at hl
  | cons a s ih =>
    cases t with
    | nil => simp at hl
    | cons b t =>
      rw [castDims, ih (by simpa using hl) (fun p hp => h p (by simp [hp]))]
      have : castDim a b = some a := by
        unfold castDim
        rcases h (b, a) (by simp) with h | h
        · simp only at h
          subst h
          by_cases ha : a = 1 <;> simp [ha]
        · simp only at h
          rw [if_pos h.symm]
      rw [this]

theorem castDims_some {s t r : List Nat} (h : castDims s t = some r) :
    ∀ p ∈ t.zip s, p.1 = 1 ∨ p.1 = p.2 ∨ p.2 = 1 := by
  induction s generalizing t r with
  | nil => cases t <;> simp
  | cons a s ih =>
    cases t with
    | nil => simp
    | cons b t =>
      rw [castDims] at h
      split at h
      · rename_i d ds h1 h2
        intro p hp
        rw [List.zip_cons_cons, List.mem_cons] at hp
        rcases hp with rfl | hp
        · unfold castDim at h1
          simp only
          split at h1
          · rename_i e; exact .inr (.inl e.symm)
          · split at h1
            · rename_i e; exact .inr (.inr e)
            · split at h1
              · rename_i e; exact .inl e
              · cases h1
        · exact ih h2 p hp
      · cases h

theorem zip_pad {k : Nat} {bs ys : List Nat} (h : k + bs.length = ys.length) :
    (List.replicate k 1 ++ bs).zip ys = (List.replicate k 1).zip (ys.take k) ++ bs.zip (ys.drop k) := by
  conv_lhs => rw [← List.take_append_drop k ys]
  rw [List.zip_append]
  simp only [List.length_replicate, List.length_take]
  omega

/-- where `x += b` works, `x + b` is the same -/
theorem addNew_of_addBias [Add α] {x b z : Tensor α} (h : x.addBias b = .ok z) : x.addNew b = .ok z := by
  unfold Tensor.addBias at h
  simp only at h
  split at h
  swap
  · cases h
  rename_i hc
  have hb : b.shape.length = b.ndim := rfl
  have hx : x.shape.length = x.ndim := rfl
  have hmax : max x.ndim b.ndim = x.ndim := by omega
  have hd : castDims (padShape x.ndim x.shape) (padShape x.ndim b.shape) = some x.shape := by
    unfold padShape
    rw [hx, hb, Nat.sub_self, List.replicate_zero, List.nil_append]
    refine castDims_self (by simp; omega) (fun p hp => ?_)
    rw [zip_pad (by omega)] at hp
    rcases List.mem_append.1 hp with hp | hp
    · exact .inl (List.eq_of_mem_replicate (List.of_mem_zip hp).1)
    · exact hc.2 p hp
  unfold Tensor.addNew
  simp only
  rw [hmax, hd]
  simp only
  rw [← h]
  refine Tensor.build_congr (fun i hi => ?_)
  have hil : i.length = x.ndim := inBounds_length hi
  unfold Tensor.castGet
  rw [hil, Nat.sub_self, List.drop_zero, cast_index hi]

/-- the lengths for which `x + b` works, if `b` has no more dimensions -/
theorem addNew_dims [Add α] {x b z : Tensor α} (h : x.addNew b = .ok z) (hn : b.ndim ≤ x.ndim) :
    ∀ p ∈ b.shape.zip (x.shape.drop (x.ndim - b.ndim)), p.1 = 1 ∨ p.1 = p.2 ∨ p.2 = 1 := by
  unfold Tensor.addNew at h
  simp only at h
  split at h
  · cases h
  rename_i s hs
  have hb : b.shape.length = b.ndim := rfl
  have hx : x.shape.length = x.ndim := rfl
  rw [show max x.ndim b.ndim = x.ndim by omega] at hs
  unfold padShape at hs
  rw [hx, hb, Nat.sub_self, List.replicate_zero, List.nil_append] at hs
  have h1 := castDims_some hs
  rw [zip_pad (by omega)] at h1
  exact fun p hp => h1 p (List.mem_append_right _ hp)

section
variable [PyUnicode]

/-- lengths of the bias and of the contraction -/
theorem bias_lengths {GR GB : List Elem} {r : Str} (hr : IsSide false false r GR) {kw : List (Str × Size)}
    (hk : (kw.map Prod.fst).Nodup) (hb : BiasOK GR GB (kw.map Prod.fst)) {len : AxisMap} {n : Nat} {y b : Tensor α}
    (hy : y.shape = (symAxes n (sideSyms GR)).map len) (hbs : List.Forall₂ (BiasDim GB kw) (nameWords GR) b.shape)
    {w : Str} {s : Size} (hw : (w, s) ∈ kw) (hwB : w ∈ sideWords GB) (hwn : ¬ IsNumber w) (hwd : w ≠ dots) :
    b.ndim ≤ y.ndim ∧ ∃ d : Nat, (d : Int) = s.val ∧ (d, len (.str w)) ∈ b.shape.zip (y.shape.drop (y.ndim - b.ndim)) := by
  obtain ⟨P, E, Q, hA, hPQ, hP⟩ := right_split hr hb n
  generalize hbsh : b.shape = bsh at hbs
  rw [hPQ] at hbs
  obtain ⟨bp, bq, hbp, hbq, rfl⟩ : ∃ bp bq, List.Forall₂ (BiasDim GB kw) P bp ∧ List.Forall₂ (BiasDim GB kw) Q bq ∧
      bsh = bp ++ bq := by
    refine ⟨bsh.take P.length, bsh.drop P.length, ?_, ?_, (List.take_append_drop _ _).symm⟩
    · have := List.forall₂_take P.length hbs
      rwa [List.take_left] at this
    · have := List.forall₂_drop P.length hbs
      rwa [List.drop_left] at this
  have hlp := hbp.length_eq
  have hlq := hbq.length_eq
  have hyl : y.ndim = P.length + E.length + Q.length := by simp [Tensor.ndim, hy, hA, Nat.add_assoc]
  have hbl : b.ndim = P.length + Q.length := by simp [Tensor.ndim, hbsh, hlp, hlq]
  have hkE : y.ndim - b.ndim = E.length := by omega
  refine ⟨by omega, ?_⟩
  have hwQ : w ∈ Q := by
    have : w ∈ P ++ Q := by
      rw [← hPQ, mem_nameWords]
      exact ⟨hb.in_output w (mem_axisWords.2 ⟨hwB, hwn⟩), hwn, hwd⟩
    exact (List.mem_append.1 this).resolve_left (fun h => hP w h hwB)
  obtain ⟨i, hi, rfl⟩ := List.mem_iff_getElem.1 hwQ
  have hd := (List.forall₂_iff_get.1 hbq).2 i hi (by omega)
  simp only [List.get_eq_getElem] at hd
  refine ⟨bq[i], ?_, ?_⟩
  · rcases hd with ⟨-, s', h1, h2⟩ | ⟨h1, -⟩
    · have e1 := dictGet_of_mem hk h1
      have e2 := dictGet_of_mem hk hw
      rw [e1] at e2
      cases e2
      exact h2
    · exact absurd hwB h1
  · rw [hkE, hy, hA, List.map_append, List.map_append, List.drop_append_of_le_length (by simp),
      List.zip_append (by simp [hlp])]
    refine List.mem_append_right _ (List.mem_iff_getElem.2 ⟨i, by simp; omega, by simp⟩)

/-! ### a layer and its parameters -/

/-- a constructed layer with parameters of its shapes -/
structure MixMade (so : Nat → SetOrder) (GL GR GW : List Elem) (bias : Option Str) (kw : List (Str × Size)) (m : EinMix α)
    (w : Tensor α) (b : Option (Tensor α)) : Prop where
  left : ∃ l, IsSide false false l GL
  right : ∃ r, IsSide false false r GR
  weight : ∃ w, IsSide false false w GW
  sides : EinmixSides GL GR GW (kw.map Prod.fst)
  units : NoUnits GW
  bias_ok : BiasLegal GR (kw.map Prod.fst) bias
  ints : IntKw kw
  made : Made so GL GR GW bias kw m
  weight_shape : w.shape = m.weightShape
  bias_shape : b.map Tensor.shape = m.biasShape

variable {so : Nat → SetOrder} {GL GR GW : List Elem} {bias : Option Str} {kw : List (Str × Size)} {m : EinMix α}
  {x w : Tensor α} {b : Option (Tensor α)}

theorem MixMade.name (h : MixMade so GL GR GW bias kw m w b) {n : Str} (hn : n ∈ kw.map Prod.fst) :
    ¬ IsNumber n ∧ n ≠ dots := by
  rcases h.sides.sizes_used n hn with h1 | h1 <;> exact (mem_nameWords.1 h1).2

/-- the elements of the left side are axes exactly if there is no rearrangement before the contraction -/
theorem single_iff (G : List Elem) : hasNonSingle (G.map unitComp) = false ↔
    ∀ e ∈ G, (e.words.filter (fun w => decide (¬ IsNumber w))).length = 1 := by
  unfold hasNonSingle
  rw [List.any_eq_false]
  constructor
  · intro h e he
    have := h _ (List.mem_map.2 ⟨e, he, rfl⟩)
    rw [unitComp_axes, flatMap_unitAxes, List.length_map] at this
    by_contra hc
    exact this (decide_eq_true hc)
  · intro h c hc
    obtain ⟨e, he, rfl⟩ := List.mem_map.1 hc
    rw [unitComp_axes, flatMap_unitAxes, List.length_map, h e he]
    decide

theorem MixMade.pre_iff (h : MixMade so GL GR GW bias kw m w b) :
    m.pre = none ↔ ∀ e ∈ GL, (e.words.filter (fun w => decide (¬ IsNumber w))).length = 1 := by
  rw [← single_iff]
  rcases h.made.pre with ⟨h1, h2⟩ | ⟨l, pat, h1, -, -, h2⟩
  · simp [h1, h2]
  · simp [h1, h2]

/-- The layer is also one for the lengths of the input, if the lengths that are compared are right. -/
theorem MixMade.relabel [CommSemiring α] (h : MixMade so GL GR GW bias kw m w b) {L R : List (List Axis)} {len : AxisMap}
    (hG : Groups GL GR x.ndim L R) (hs : x.shape = L.map (groupSize len))
    (hc : ∀ n s, (n, s) ∈ kw → SizeCompared GL GW bias n s → (len (.str n) : Int) = s.val) :
    ∃ kw' bias' GB', MixCall GL GR GW bias' kw' m L R len x w b ∧ Made so GL GR GW bias' kw' m ∧
      (∀ t, bias' = some t → IsSide false false t GB') ∧ kw'.map Prod.fst = kw.map Prod.fst ∧
      ∀ env, biasAt GR GB' b env = biasCast GR b env := by
  obtain ⟨l, hl⟩ := h.left
  obtain ⟨r, hr⟩ := h.right
  obtain ⟨wt, hwt⟩ := h.weight
  obtain ⟨hck, hu, hz⟩ := einmixSides_iff.1 h.sides
  let kw' : List (Str × Size) := kw.map (fun p => (p.1, ⟨len (.str p.1), true⟩))
  have hnames : kw'.map Prod.fst = kw.map Prod.fst := by simp [kw']
  have hmem : ∀ n s, (n, s) ∈ kw' ↔ n ∈ kw.map Prod.fst ∧ s = ⟨len (.str n), true⟩ := by
    intro n s
    simp only [kw', List.mem_map, Prod.mk.injEq]
    constructor
    · rintro ⟨p, hp, rfl, rfl⟩
      exact ⟨⟨p, hp, rfl⟩, rfl⟩
    · rintro ⟨⟨p, hp, rfl⟩, rfl⟩
      exact ⟨p, hp, rfl, rfl⟩
  have hints : IntKw kw' := ⟨by rw [hnames]; exact h.ints.nodup, fun p hp => by
    obtain ⟨q, -, rfl⟩ := List.mem_map.1 hp
    rfl⟩
  -- the bias
  obtain ⟨bias', GB', hGB, hBL, hbp, hcast⟩ : ∃ (bias' : Option Str) (GB' : List Elem),
      (∀ t, bias' = some t → IsSide false false t GB') ∧ BiasLegal GR (kw'.map Prod.fst) bias' ∧
      ((bias' = none → m.biasShape = none) ∧
        ∀ t, bias' = some t → ∃ bs, m.biasShape = some bs ∧ List.Forall₂ (BiasDim GB' kw') (nameWords GR) bs) ∧
      ∀ env, biasAt GR GB' b env = biasCast GR b env := by
    cases hb : bias with
    | none =>
      have hbs := h.bias_shape
      rw [h.made.params.no_bias hb] at hbs
      cases b with
      | some b => cases hbs
      | none =>
        exact ⟨none, [], fun t ht => (nomatch ht), fun t ht => (nomatch ht), ⟨fun _ => h.made.params.no_bias hb,
          fun t ht => (nomatch ht)⟩, fun env => rfl⟩
    | some t =>
      obtain ⟨GB, h1, h2⟩ := h.bias_ok t hb
      obtain ⟨bs, h3, h4⟩ := h.made.params.bias t GB hb h1
      let Z : List Str := (axisWords GB).filter (fun v => decide ((sizeFor kw v).val ≠ 1))
      have hZ : ∀ v, v ∈ Z ↔ v ∈ axisWords GB ∧ (sizeFor kw v).val ≠ 1 := by
        intro v
        simp only [Z, List.mem_filter, decide_eq_true_eq]
      have hsw : sideWords (Z.map Elem.bare) = Z := by
        unfold sideWords
        induction Z with
        | nil => rfl
        | cons v Z ih => rw [List.map_cons, List.flatMap_cons, ih]; rfl
      have hsub : Z.Sublist (sideWords GB) := List.filter_sublist.trans List.filter_sublist
      have hg : GoodSide (Z.map Elem.bare) := by
        have hg := h1.good
        unfold GoodSide
        rw [hsw]
        exact ⟨fun v hv => hg.1 v (hsub.subset hv), le_trans (hsub.count_le _) hg.2.1, hg.2.2.sublist (hsub.filter _)⟩
      obtain ⟨t', ht'⟩ := exists_side hg
      have hax : ∀ v, v ∈ axisWords (Z.map Elem.bare) ↔ v ∈ Z := by
        intro v
        rw [mem_axisWords, hsw]
        exact ⟨And.left, fun hv => ⟨hv, (mem_axisWords.1 ((hZ v).1 hv).1).2⟩⟩
      have hdim : ∀ v d, v ∈ nameWords GR → BiasDim GB kw v d → (v ∈ Z ↔ d ≠ 1) ∧ BiasDim (Z.map Elem.bare) kw' v d := by
        intro v d hv hd
        have hvn := (mem_nameWords.1 hv).2.1
        unfold BiasDim
        rw [hsw]
        rcases hd with ⟨hv1, s, hs1, hs2⟩ | ⟨hv1, rfl⟩
        · have hsz : sizeFor kw v = s := by
            unfold sizeFor
            rw [dictGet_of_mem h.ints.nodup hs1]
            rfl
          have hiff : v ∈ Z ↔ d ≠ 1 := by
            rw [hZ, hsz]
            constructor
            · rintro ⟨-, h5⟩ rfl
              exact h5 (by rw [← hs2]; rfl)
            · intro h5
              exact ⟨mem_axisWords.2 ⟨hv1, hvn⟩, by omega⟩
          refine ⟨hiff, ?_⟩
          by_cases hd1 : d = 1
          · exact .inr ⟨fun h5 => (hiff.1 h5) hd1, hd1⟩
          · refine .inl ⟨hiff.2 hd1, _, (hmem v _).2 ⟨List.mem_map.2 ⟨_, hs1, rfl⟩, rfl⟩, ?_⟩
            have := hc v s hs1 (.inr (.inr ⟨by omega, t, GB, hb, h1, hv1⟩))
            simp only
            omega
        · have hvZ : v ∉ Z := fun h5 => hv1 (hsub.subset h5)
          exact ⟨⟨fun h5 => absurd h5 hvZ, fun h5 => absurd rfl h5⟩, .inr ⟨hvZ, rfl⟩⟩
      refine ⟨some t', Z.map Elem.bare, fun t'' h5 => by cases h5; exact ht', ?_, ⟨fun h5 => (nomatch h5), ?_⟩, ?_⟩
      · intro t'' h5
        cases h5
        refine ⟨_, ht', ?_, ?_, ?_, ?_⟩
        · intro v hv hn
          rw [hsw] at hv
          exact absurd hn (mem_axisWords.1 ((hZ v).1 hv).1).2
        · exact fun v hv => h2.in_output v ((hZ v).1 ((hax v).1 hv)).1
        · rw [hnames]
          exact fun v hv => h2.sized v ((hZ v).1 ((hax v).1 hv)).1
        · exact fun p q hpq v hv => h2.after p q hpq v ((hZ v).1 ((hax v).1 hv)).1
      · intro t'' _
        refine ⟨bs, h3, List.forall₂_iff_zip.2 ⟨h4.length_eq, fun {v d} hp => ?_⟩⟩
        exact (hdim v d (List.of_mem_zip hp).1 ((List.forall₂_iff_zip.1 h4).2 hp)).2
      · intro env
        have hbs := h.bias_shape
        rw [h3] at hbs
        cases b with
        | none => cases hbs
        | some b =>
          simp only [Option.map_some, Option.some.injEq] at hbs
          unfold biasAt biasCast
          simp only
          congr 1
          rw [hbs, hsw]
          have key : ∀ (ws : List Str) (ds : List Nat), (∀ v ∈ ws, v ∈ nameWords GR) → List.Forall₂ (BiasDim GB kw) ws ds →
              ws.map (fun v => if v ∈ Z then env (.str v) else 0) =
                List.zipWith (fun v d => if d = 1 then 0 else env (.str v)) ws ds := by
            intro ws ds hws hf
            induction hf with
            | nil => rfl
            | @cons v d ws ds h5 _ ih =>
              rw [List.map_cons, List.zipWith_cons_cons, ih (fun v hv => hws v (by simp [hv]))]
              congr 1
              have := (hdim v d (hws v (by simp)) h5).1
              by_cases hd1 : d = 1
              · rw [if_pos hd1, if_neg (fun h6 => this.1 h6 hd1)]
              · rw [if_neg hd1, if_pos (this.2 hd1)]
          exact key _ _ (fun _ hv => hv) h4
  have hsize : ∀ v ∈ sideWords GW, (sizeFor kw' v).val = (sizeFor kw v).val := by
    intro v hv
    obtain ⟨p, hp, rfl⟩ := List.mem_map.1 (h.sides.weight_sized v (mem_axisWords.2 ⟨hv, h.units v hv⟩))
    unfold sizeFor
    rw [dictGet_of_mem h.ints.nodup hp, dictGet_of_mem hints.nodup ((hmem p.1 _).2 ⟨List.mem_map_of_mem hp, rfl⟩)]
    simp only [Option.getD_some]
    exact hc p.1 p.2 hp (.inr (.inl hv))
  refine ⟨kw', bias', GB', ⟨h.left, h.right, h.weight, by rw [hnames]; exact h.sides, h.units, hBL, hints, hG, ⟨hs, ?_, ?_⟩,
    h.weight_shape, h.bias_shape⟩, ⟨?_, h.made.post, ⟨?_, hbp.1, ?_⟩, h.made.letters, h.made.einsum, ?_⟩, hGB, hnames, hcast⟩
  · intro n s hn
    rw [((hmem n s).1 hn).2]
  · intro sd i v hv
    obtain ⟨n, hn, hL, hR, -⟩ := hG
    rw [hL, hR, flatten_syms hck.units_left (fun v hv => ne_ell hl hv) 0 n,
      flatten_syms hck.units_right (fun v hv => ne_ell hr hv) 1 n, List.mem_append] at hv
    exact absurd hv (by rintro (h | h) <;> exact no_anon h)
  · rcases h.made.pre with ⟨h1, h2⟩ | ⟨l', pat, h1, h2, h3, h4⟩
    · exact .inl ⟨h1, h2⟩
    · right
      have hkk : kw' = kw := by
        have hall : ∀ p ∈ kw, ((p.1, ⟨len (.str p.1), true⟩) : Str × Size) = p := by
          intro p hp
          have h5 := hc p.1 p.2 hp (.inl ?_)
          · have h6 := h.ints.int p hp
            obtain ⟨n, v, i⟩ := p
            simp only at h5 h6
            rw [h5, h6]
          · by_contra hne
            have : hasNonSingle (GL.map unitComp) = false := (single_iff GL).2 (by
              intro e he
              by_contra h7
              exact hne ⟨e, he, h7⟩)
            rw [this] at h4
            cases h4
        calc kw' = kw.map id := List.map_congr_left hall
          _ = kw := List.map_id _
      rw [hkk]
      exact ⟨l', pat, h1, h2, h3, h4⟩
  · have h1 := h.made.params.weight
    refine List.forall₂_iff_zip.2 ⟨h1.length_eq, fun {v d} hp => ?_⟩
    obtain ⟨s, h2, h3⟩ := (List.forall₂_iff_zip.1 h1).2 hp
    refine ⟨⟨len (.str v), true⟩, (hmem v _).2 ⟨List.mem_map.2 ⟨_, h2, rfl⟩, rfl⟩, ?_⟩
    have := hc v s h2 (.inr (.inl (List.of_mem_zip hp).1))
    simp only
    omega
  · intro t GB ht hGB'
    obtain ⟨bs, h1, h2⟩ := hbp.2 t ht
    rw [IsSide.unique hGB' (hGB t ht)]
    exact ⟨bs, h1, h2⟩
  · rw [h.made.fan]
    congr 1
    refine List.map_congr_left (fun v hv => ?_)
    exact (hsize v (List.mem_filter.1 hv).1).symm

/-! ### what a successful call shows -/

/-- the left side, written as an `einsum` term, and its groups -/
theorem MixMade.groups_of (h : MixMade so GL GR GW bias kw m w b) (hpre : m.pre = none) {n : Nat}
    (hn : x.ndim = (symAxes n (sideSyms GL)).length) :
    ∃ n' L R, Groups GL GR x.ndim L R ∧ L = (symAxes n (sideSyms GL)).map (fun a => [a]) ∧
      symAxes n' (sideSyms GL) = symAxes n (sideSyms GL) ∧ R.flatten = symAxes n' (sideSyms GR) ∧
      symAxes n' (sideSyms GW) = symAxes n (sideSyms GW) := by
  obtain ⟨l, hl⟩ := h.left
  obtain ⟨r, hr⟩ := h.right
  obtain ⟨hck, hu, hz⟩ := einmixSides_iff.1 h.sides
  have hsing : hasNonSingle (GL.map unitComp) = false := (single_iff GL).2 (h.pre_iff.1 hpre)
  have hW : ∀ k, symAxes k (sideSyms GW) = (sideWords GW).map Axis.str := weight_axes h.units hck.weight_fixed
  obtain ⟨n', h1, h2⟩ : ∃ n', (dots ∉ sideWords GL → n' = 0) ∧ symAxes n' (sideSyms GL) = symAxes n (sideSyms GL) := by
    by_cases hd : dots ∈ sideWords GL
    · exact ⟨n, fun h => absurd hd h, rfl⟩
    · exact ⟨0, fun _ => rfl, symAxes_noell (fun h => hd (mem_sideSyms_ell.1 h))⟩
  have hLs : spread (ellAxes n') (denote 0 0 GL) = (symAxes n (sideSyms GL)).map (fun a => [a]) := by
    rw [single_spread hck.units_left hck.ellipsis_left (fun w hw => ne_ell hl hw) hsing 0 n',
      flatten_syms hck.units_left (fun v hv => ne_ell hl hv) 0 n', h2]
  refine ⟨n', _, _, ⟨n', h1, rfl, rfl, ?_⟩, hLs, h2, flatten_syms hck.units_right (fun v hv => ne_ell hr hv) 1 n', ?_⟩
  · rw [hLs, hn, List.length_map]
  · rw [hW, hW]

/-- the letters of the layer -/
theorem MixMade.letters (h : MixMade so GL GR GW bias kw m w b) :
    (einmixNames GL GR GW).length ≤ 52 ∧
    (∀ t ∈ sideSyms GR :: [sideSyms GL, sideSyms GW], ∀ v ∈ symNames t, v ∈ einmixNames GL GR GW) ∧
    (∀ v ∈ einmixNames GL GR GW, ∀ c l, v ≠ '…' :: c :: l) ∧
    ∀ t ∈ sideSyms GR :: [sideSyms GL, sideSyms GW], t.count .ell ≤ 1 := by
  obtain ⟨l, hl⟩ := h.left
  obtain ⟨r, hr⟩ := h.right
  obtain ⟨wt, hw⟩ := h.weight
  have hmem : ∀ w', w' ∈ einmixNames GL GR GW ↔ w' ∈ nameWords GL ++ nameWords GR ++ nameWords GW := fun w' =>
    mem_mapped (fun v hv => ne_ell hl hv) (fun v hv => ne_ell hr hv) (fun v hv => ne_ell hw hv)
  refine ⟨by have := h.made.letters; omega, ?_, ?_, ?_⟩
  · intro t ht v hv
    rw [hmem]
    simp only [List.mem_cons, List.not_mem_nil, or_false] at ht
    rcases ht with rfl | rfl | rfl <;> rw [symNames_side] at hv <;> simp [hv]
  · intro v hv c t e
    rw [hmem] at hv
    simp only [List.mem_append, mem_nameWords] at hv
    have : '…' ∉ v := by
      rcases hv with (⟨hv, -⟩ | ⟨hv, -⟩) | ⟨hv, -⟩
      · exact side_no_ell hl v hv
      · exact side_no_ell hr v hv
      · exact side_no_ell hw v hv
    exact this (by rw [e]; simp)
  · intro t ht
    simp only [List.mem_cons, List.not_mem_nil, or_false] at ht
    rcases ht with rfl | rfl | rfl
    · exact count_sideSyms hr
    · exact count_sideSyms hl
    · exact count_sideSyms hw

/-- the sizes of the weight axes, from the shape of the weight -/
theorem MixMade.weight_sizes (h : MixMade so GL GR GW bias kw m w b) {n : Str} {s : Size} (hn : (n, s) ∈ kw)
    (hw : n ∈ sideWords GW) : ∃ d : Nat, (d : Int) = s.val ∧ (n, d) ∈ (sideWords GW).zip w.shape := by
  have h1 := h.made.params.weight
  rw [← h.weight_shape] at h1
  obtain ⟨i, hi, e⟩ := List.mem_iff_getElem.1 hw
  have hi' : i < w.shape.length := by rw [← h1.length_eq]; exact hi
  have hz : (n, w.shape[i]) ∈ (sideWords GW).zip w.shape :=
    List.mem_iff_getElem.2 ⟨i, by simp; omega, by simp [e]⟩
  refine ⟨w.shape[i], ?_, hz⟩
  obtain ⟨s', h2, h3⟩ := (List.forall₂_iff_zip.1 h1).2 hz
  have e1 := dictGet_of_mem h.ints.nodup h2
  rw [dictGet_of_mem h.ints.nodup hn] at e1
  cases e1
  exact h3

/-- with a strict `einsum` and no rearrangement before it, the sizes of weight axes are those of the input -/
theorem MixMade.strict_sizes {f : Str → List (Tensor α) → Py (Tensor α)} (hf : EinsumStrict f)
    (h : MixMade so GL GR GW bias kw m w b) (hpre : m.pre = none) {y : Tensor α} (hy : f m.einsumPattern [x, w] = .ok y) :
    ∃ L R len, Groups GL GR x.ndim L R ∧ x.shape = L.map (groupSize len) ∧
      (∀ n s, (n, s) ∈ kw → n ∈ sideWords GW → (len (.str n) : Int) = s.val) ∧
      ∃ n, R.flatten = symAxes n (sideSyms GR) ∧ x.shape = (symAxes n (sideSyms GL)).map len ∧
        w.shape = (symAxes n (sideSyms GW)).map len := by
  obtain ⟨h1, h2, h3, h4⟩ := h.letters
  rw [h.made.einsum] at hy
  obtain ⟨len, n, h5⟩ := strict_letters hf (by simp) h1 h2 h3 h4 hy
  cases h5 with
  | cons h6 h7 =>
    cases h7 with
    | cons h7 _ =>
      obtain ⟨n', L, R, hG, hL, hn1, hR, hn2⟩ := h.groups_of (x := x) hpre (n := n) (by simp [Tensor.ndim, h6])
      refine ⟨L, R, len, hG, ?_, ?_, n', hR, by rw [hn1, h6], by rw [hn2, h7]⟩
      · rw [hL, singles_size, h6]
      · intro v s hv hw
        obtain ⟨d, hd1, hd2⟩ := h.weight_sizes hv hw
        rw [h7, weight_axes h.units h.sides.weight_fixed] at hd2
        obtain ⟨i, hi, e⟩ := List.mem_iff_getElem.1 hd2
        simp only [List.getElem_zip, List.getElem_map, Prod.mk.injEq] at e
        rw [← hd1, ← e.2, e.1]

/-- with an `einsum` that stretches dimensions -/
theorem MixMade.cast_sizes {f : Str → List (Tensor α) → Py (Tensor α)} (hf : EinsumCasts f)
    (h : MixMade so GL GR GW bias kw m w b) (hpre : m.pre = none) {y : Tensor α} (hy : f m.einsumPattern [x, w] = .ok y) :
    ∃ L R len, Groups GL GR x.ndim L R ∧ x.shape = L.map (groupSize len) ∧
      ∀ n s, (n, s) ∈ kw → n ∈ sideWords GL → n ∈ sideWords GW → (len (.str n) : Int) = s.val ∨ len (.str n) = 1 ∨ s.val = 1 := by
  obtain ⟨l, hl⟩ := h.left
  obtain ⟨h1, h2, h3, h4⟩ := h.letters
  rw [h.made.einsum] at hy
  obtain ⟨len, h5⟩ := casts_letters hf (by simp) h1 h2 h3 h4 hy
  cases h5 with
  | cons h6 h7 =>
    cases h7 with
    | cons h7 _ =>
      obtain ⟨n, h8, h9⟩ := h6
      obtain ⟨k, h10, h11⟩ := h7
      obtain ⟨n', L, R, hG, hL, hn1, hR, hn2⟩ := h.groups_of (x := x) hpre (n := n) h8
      have hnd : (symAxes n (sideSyms GL)).Nodup := by
        rw [← flatten_syms h.sides.units_left (fun v hv => ne_ell hl hv) 0 n]
        exact side_flatten_nodup hl 0 n
      -- the lengths of the input
      let len' : AxisMap := fun a => nth x.shape ((symAxes n (sideSyms GL)).idxOf a)
      have hlen' : ∀ i (hi : i < (symAxes n (sideSyms GL)).length), len' (symAxes n (sideSyms GL))[i] = nth x.shape i := by
        intro i hi
        simp only [len']
        rw [hnd.idxOf_getElem]
      refine ⟨L, R, len', hG, ?_, ?_⟩
      · rw [hL, singles_size]
        refine List.ext_getElem (by rw [List.length_map]; exact h8) (fun i hi1 hi2 => ?_)
        rw [List.getElem_map, hlen' i (by simpa using hi2)]
        simp [nth, List.getD, List.getElem?_eq_getElem hi1]
      · intro v s hv hvL hvW
        obtain ⟨d, hd1, hd2⟩ := h.weight_sizes hv hvW
        have hvn := h.name (List.mem_map_of_mem (f := Prod.fst) hv)
        have hva : Axis.str v ∈ symAxes n (sideSyms GL) := mem_symAxes.2 (.inr ⟨v, by
          rw [symNames_side, mem_nameWords]; exact ⟨hvL, hvn⟩, rfl⟩)
        have hell : ∀ j, Axis.str v ∉ ellAxes j := by
          intro j hj
          obtain ⟨c, t, e⟩ := ellAxes_long hj
          simp only [Axis.str.injEq] at e
          exact side_no_ell hl v hvL (by rw [e]; simp)
        obtain ⟨i, hi, e⟩ := List.mem_iff_getElem.1 hva
        have hix : i < x.shape.length := by rw [show x.shape.length = x.ndim from rfl, h8]; exact hi
        have hx := h9 (.str v, x.shape[i]) (List.mem_iff_getElem.2 ⟨i, by simp; omega, by simp [e]⟩) (hell n)
        have hl1 : len' (.str v) = x.shape[i] := by
          rw [← e, hlen' i hi]
          simp [nth, List.getD, List.getElem?_eq_getElem hix]
        rw [weight_axes h.units h.sides.weight_fixed] at h11
        have hw := h11 (.str v, d) (by
          rw [List.zip_map_left, List.mem_map]
          exact ⟨(v, d), hd2, rfl⟩) (hell k)
        simp only at hx hw
        rw [hl1]
        omega

/-- with a rearrangement before the contraction, all sizes are those of the input -/
theorem MixMade.pre_sizes {call : Layer α → Tensor α → Py (Tensor α)} (hcall : LayerCall call)
    (h : MixMade so GL GR GW bias kw m w b) (hpre : m.pre ≠ none) {x1 : Tensor α} (hx : callOpt call m.pre x = .ok x1) :
    ∃ L R len, Groups GL GR x.ndim L R ∧ Fits L R kw x.shape len ∧ Determinate L (kw.map Prod.fst) len := by
  obtain ⟨l, hl⟩ := h.left
  obtain ⟨r, hr⟩ := h.right
  obtain ⟨wt, hwt⟩ := h.weight
  obtain ⟨hck, hu, hz⟩ := einmixSides_iff.1 h.sides
  rcases h.made.pre with ⟨h1, -⟩ | ⟨ly, pat, h1, hp, h2, -⟩
  · exact absurd h1 hpre
  rw [h1] at hx
  obtain ⟨bk, hb, hc⟩ := call_reduce hcall
  have hik : IntKw (preKw GL kw) := ⟨h.ints.nodup.sublist (List.Sublist.map _ List.filter_sublist),
    fun p hp => h.ints.int p (List.mem_filter.1 hp).1⟩
  obtain ⟨h3, h4⟩ := hc hik.nodup hp h2 x
  by_cases hrk : LayerRank GL x.ndim
  swap
  · rw [callOpt, h4 hrk] at hx; cases hx
  have hred := h3 hrk (so 0)
  rw [callOpt] at hx
  rw [hx] at hred
  obtain ⟨GL', GR', L, R', len, ha, -⟩ := (move_iff hb (so 0) (isPattern_split hp).1 hik (.inl rfl)
    (fun h => by cases h) x1).1 hred.symm
  obtain ⟨rfl, rfl⟩ := isPattern_unique hp ha.pattern
  obtain ⟨n, hn, hL, -, hlen⟩ := ha.prepared.groups
  have hLs : L.flatten = symAxes n (sideSyms GL) := by
    rw [hL]; exact flatten_syms hck.units_left (fun v hv => ne_ell hl hv) 0 n
  have hRs : (spread (ellAxes n) (denote 1 0 GR)).flatten = symAxes n (sideSyms GR) :=
    flatten_syms hck.units_right (fun v hv => ne_ell hr hv) 1 n
  -- sizes of names that are not on the left are free
  let len' : AxisMap := fun a => if a ∈ L.flatten then len a else
    match a with
    | .str v => (sizeFor kw v).val.toNat
    | _ => 0
  have hcongr : ∀ a ∈ L.flatten, len' a = len a := fun a ha => by simp only [len']; rw [if_pos ha]
  refine ⟨L, _, len', ⟨n, hn, hL, rfl, hlen⟩, ⟨?_, ?_, ?_⟩, ?_⟩
  · rw [ha.fits.shape_eq]
    refine List.map_congr_left (fun g hg => groupSize_congr (fun a haa => ?_))
    exact (hcongr a (List.mem_flatten.2 ⟨g, hg, haa⟩)).symm
  · intro v s hv
    have hvn := h.name (List.mem_map_of_mem (f := Prod.fst) hv)
    by_cases hvL : v ∈ sideWords GL
    · have hva : Axis.str v ∈ L.flatten := by
        rw [hLs]
        exact mem_symAxes.2 (.inr ⟨v, by rw [symNames_side, mem_nameWords]; exact ⟨hvL, hvn⟩, rfl⟩)
      rw [hcongr _ hva]
      refine ha.fits.kw_eq v s (List.mem_filter.2 ⟨hv, ?_⟩)
      exact decide_eq_true (mem_axisWords.2 ⟨hvL, hvn.1⟩)
    · have hvW : v ∈ sideWords GW := by
        rcases h.sides.sizes_used v (List.mem_map_of_mem (f := Prod.fst) hv) with h5 | h5
        · exact absurd (mem_nameWords.1 h5).1 hvL
        · exact (mem_nameWords.1 h5).1
      have hva : Axis.str v ∉ L.flatten := by
        rw [hLs, mem_symAxes]
        rintro (⟨-, h5⟩ | ⟨v', h5, h6⟩)
        · obtain ⟨c, t, e⟩ := ellAxes_long h5
          simp only [Axis.str.injEq] at e
          exact side_no_ell hwt v hvW (by rw [e]; simp)
        · cases h6
          rw [symNames_side, mem_nameWords] at h5
          exact hvL h5.1
      obtain ⟨d, hd, -⟩ := h.weight_sizes hv hvW
      have : len' (.str v) = (sizeFor kw v).val.toNat := by simp only [len']; rw [if_neg hva]
      rw [this]
      unfold sizeFor
      rw [dictGet_of_mem h.ints.nodup hv]
      simp only [Option.getD_some]
      omega
  · intro sd i v hv
    rw [hRs, hLs, List.mem_append] at hv
    exact absurd hv (by rintro (h | h) <;> exact no_anon h)
  · intro g hg hu'
    have hmem : ∀ a ∈ g, a ∈ L.flatten := fun a haa => List.mem_flatten.2 ⟨g, hg, haa⟩
    have hkn : ∀ a ∈ L.flatten, isKnown ((preKw GL kw).map Prod.fst) a = isKnown (kw.map Prod.fst) a := by
      intro a haa
      cases a with
      | anon => rfl
      | str v =>
        simp only [isKnown, decide_eq_decide, mem_preKw_names, and_iff_left_iff_imp]
        intro hv
        rw [hLs, mem_symAxes, symNames_side] at haa
        rcases haa with ⟨-, h5⟩ | ⟨v', hv', e⟩
        · obtain ⟨c, t, e⟩ := ellAxes_long h5
          simp only [Axis.str.injEq] at e
          have : '…' ∉ v := by
            rcases h.sides.sizes_used v hv with h6 | h6
            · exact side_no_ell hl v (mem_nameWords.1 h6).1
            · exact side_no_ell hwt v (mem_nameWords.1 h6).1
          exact absurd (by rw [e]; simp) this
        · cases e
          exact (List.mem_filter.1 hv').1
    have hdet := ha.determinate g hg
    rw [List.filter_congr (fun a haa => hkn a (hmem a haa))] at hdet
    rw [groupSize_congr (fun a haa => hcongr a (hmem a (List.mem_filter.1 haa).1))]
    obtain ⟨a, haa, h5⟩ := hu'
    exact hdet ⟨a, haa, by rw [hkn a (hmem a haa)]; exact h5⟩

/-- without a rearrangement before the contraction, lengths are always determined -/
theorem MixMade.determinate (h : MixMade so GL GR GW bias kw m w b) (hpre : m.pre = none) {L R : List (List Axis)}
    (hG : Groups GL GR x.ndim L R) (len : AxisMap) (names : List Str) : Determinate L names len := by
  obtain ⟨l, hl⟩ := h.left
  obtain ⟨hck, hu, hz⟩ := einmixSides_iff.1 h.sides
  have hsing : hasNonSingle (GL.map unitComp) = false := (single_iff GL).2 (h.pre_iff.1 hpre)
  obtain ⟨n, -, hL, -, -⟩ := hG
  have h1 := single_spread hck.units_left hck.ellipsis_left (fun w hw => ne_ell hl hw) hsing 0 n
  rw [← hL] at h1
  intro g hg hk
  rw [h1] at hg
  obtain ⟨a, -, rfl⟩ := List.mem_map.1 hg
  obtain ⟨a', ha', hk⟩ := hk
  simp only [List.mem_singleton] at ha'
  subst ha'
  rw [List.filter_cons_of_neg (by rw [hk]; simp)]
  simp [groupSize]

/-- the number of dimensions for which the layers have recipes, in terms of the input -/
theorem MixMade.rank (h : MixMade so GL GR GW bias kw m w b) {L R : List (List Axis)} (hG : Groups GL GR x.ndim L R) :
    LayerRank GL x.ndim ↔ (dots ∈ sideWords GL → x.ndim < GL.length + 7) := by
  obtain ⟨l, hl⟩ := h.left
  obtain ⟨n, h3, h4, -, h5⟩ := hG
  have h6 := spread_length (side := 0) (k := 0) (G := GL) (ellAxes n)
  rw [bare_count_of hl.one_ellipsis h.sides.ellipsis_left, show (ellAxes n).length = n by simp [ellAxes], ← h4, h5] at h6
  unfold LayerRank
  by_cases hd : dots ∈ sideWords GL
  · rw [if_pos hd] at h6 ⊢
    have : 1 ≤ GL.length := by
      rw [Nat.one_le_iff_ne_zero, Ne, List.length_eq_zero_iff]
      rintro rfl
      simp [sideWords] at hd
    simp only [hd, true_implies]
    omega
  · rw [if_neg hd] at h6 ⊢
    simp only [hd, false_implies, iff_true]
    omega

/-! ### whole calls -/

section forward
variable [CommSemiring α] {call : Layer α → Tensor α → Py (Tensor α)} {f : Str → List (Tensor α) → Py (Tensor α)} {y : Tensor α}

theorem forward_steps (hy : m.forward call f w b x = .ok y) : ∃ x1 y0 y1, callOpt call m.pre x = .ok x1 ∧
    f m.einsumPattern [x1, w] = .ok y0 ∧ addOptBias y0 b = .ok y1 ∧ callOpt call m.post y1 = .ok y := by
  unfold EinMix.forward at hy
  split at hy
  · cases hy
  · rename_i x1 h1
    split at hy
    · cases hy
    · rename_i y0 h2
      split at hy
      · cases hy
      · rename_i y1 h3
        exact ⟨x1, y0, y1, h1, h2, h3, hy⟩

theorem forwardNew_steps (hy : m.forwardNew call f w b x = .ok y) : ∃ x1 y0 y1, callOpt call m.pre x = .ok x1 ∧
    f m.einsumPattern [x1, w] = .ok y0 ∧ addOptNew y0 b = .ok y1 ∧ callOpt call m.post y1 = .ok y := by
  unfold EinMix.forwardNew at hy
  split at hy
  · cases hy
  · rename_i x1 h1
    split at hy
    · cases hy
    · rename_i y0 h2
      split at hy
      · cases hy
      · rename_i y1 h3
        exact ⟨x1, y0, y1, h1, h2, h3, hy⟩

theorem forwardNew_of_forward (hy : m.forward call f w b x = .ok y) : m.forwardNew call f w b x = .ok y := by
  obtain ⟨x1, y0, y1, h1, h2, h3, h4⟩ := forward_steps hy
  have h5 : addOptNew y0 b = .ok y1 := by
    cases b with
    | none => exact h3
    | some b => exact addNew_of_addBias h3
  unfold EinMix.forwardNew
  simp only [h1, h2, h5, h4]

/-- the lengths of bias axes -/
theorem MixMade.bias_sizes (h : MixMade so GL GR GW bias kw m w b) {len : AxisMap} {n : Nat} {y0 y1 : Tensor α}
    (hsh : y0.shape = (symAxes n (sideSyms GR)).map len) {v : Str} {s : Size} (hv : (v, s) ∈ kw)
    (hvB : ∃ t GB, bias = some t ∧ IsSide false false t GB ∧ v ∈ sideWords GB) :
    (addOptBias y0 b = .ok y1 → (len (.str v) : Int) = s.val ∨ s.val = 1) ∧
    (addOptNew y0 b = .ok y1 → (len (.str v) : Int) = s.val ∨ s.val = 1 ∨ len (.str v) = 1) := by
  obtain ⟨t, GB, ht, hGB, hvB⟩ := hvB
  obtain ⟨r, hr⟩ := h.right
  obtain ⟨bs, h3, h4⟩ := h.made.params.bias t GB ht hGB
  obtain ⟨GB', h5, h6⟩ := h.bias_ok t ht
  rw [← IsSide.unique hGB h5] at h6
  have hbs := h.bias_shape
  rw [h3] at hbs
  cases b with
  | none => cases hbs
  | some b =>
    simp only [Option.map_some, Option.some.injEq] at hbs
    rw [← hbs] at h4
    have hvn := h.name (List.mem_map_of_mem (f := Prod.fst) hv)
    obtain ⟨h7, d, h8, h9⟩ := bias_lengths hr h.ints.nodup h6 hsh h4 hv hvB hvn.1 hvn.2
    constructor
    · intro hb
      unfold addOptBias Tensor.addBias at hb
      simp only at hb
      split at hb
      · rename_i hc
        have := hc.2 _ h9
        simp only at this
        omega
      · cases hb
    · intro hb
      have := addNew_dims hb h7 _ h9
      simp only at this
      omega

/-- what the success of a call shows -/
theorem MixMade.compared (hcall : LayerCall call) (hf : EinsumLawful f) (hs : EinsumStrict f)
    (h : MixMade so GL GR GW bias kw m w b) (hy : m.forward call f w b x = .ok y) :
    ∃ L R len, Groups GL GR x.ndim L R ∧ x.shape = L.map (groupSize len) ∧ Determinate L (kw.map Prod.fst) len ∧
      ∀ n s, (n, s) ∈ kw → SizeCompared GL GW bias n s → (len (.str n) : Int) = s.val := by
  obtain ⟨x1, y0, y1, h1, h2, h3, h4⟩ := forward_steps hy
  by_cases hpre : m.pre = none
  · rw [hpre, callOpt] at h1
    cases h1
    obtain ⟨L, R, len, hG, hsh, hk, n, hR, hx, hw⟩ := h.strict_sizes hs hpre h2
    refine ⟨L, R, len, hG, hsh, h.determinate hpre hG len _, fun v s hv hc => ?_⟩
    rcases hc with ⟨e, he, hne⟩ | hc | ⟨hc, hc'⟩
    · exact absurd (h.pre_iff.1 hpre e he) hne
    · exact hk v s hv hc
    · obtain ⟨l, hl⟩ := h.left
      obtain ⟨r, hr⟩ := h.right
      obtain ⟨wt, hwt⟩ := h.weight
      obtain ⟨hck, -, -⟩ := einmixSides_iff.1 h.sides
      obtain ⟨y', h5, h6⟩ := einmix_contracts hf hl hr hwt hck h.made.letters (len := len) (n := n) hx hw
      rw [← h.made.einsum, h2] at h5
      cases h5
      exact ((h.bias_sizes h6.1 hv hc').1 h3).resolve_right hc
  · obtain ⟨L, R, len, hG, hF, hd⟩ := h.pre_sizes hcall hpre h1
    exact ⟨L, R, len, hG, hF.shape_eq, hd, fun n s hn _ => hF.kw_eq n s hn⟩

/-- the same for addition to a new tensor -/
theorem MixMade.compared_new (hcall : LayerCall call) (hf : EinsumLawful f) (hs : EinsumStrict f)
    (h : MixMade so GL GR GW bias kw m w b) (hy : m.forwardNew call f w b x = .ok y) :
    ∃ L R len, Groups GL GR x.ndim L R ∧ x.shape = L.map (groupSize len) ∧ Determinate L (kw.map Prod.fst) len ∧
      ∀ n s, (n, s) ∈ kw → SizeCompared GL GW bias n s → (len (.str n) : Int) = s.val ∨
        m.pre = none ∧ n ∉ sideWords GW ∧ len (.str n) = 1 := by
  obtain ⟨x1, y0, y1, h1, h2, h3, h4⟩ := forwardNew_steps hy
  by_cases hpre : m.pre = none
  · rw [hpre, callOpt] at h1
    cases h1
    obtain ⟨L, R, len, hG, hsh, hk, n, hR, hx, hw⟩ := h.strict_sizes hs hpre h2
    refine ⟨L, R, len, hG, hsh, h.determinate hpre hG len _, fun v s hv hc => ?_⟩
    by_cases hvW : v ∈ sideWords GW
    · exact .inl (hk v s hv hvW)
    rcases hc with ⟨e, he, hne⟩ | hc | ⟨hc, hc'⟩
    · exact absurd (h.pre_iff.1 hpre e he) hne
    · exact absurd hc hvW
    · obtain ⟨l, hl⟩ := h.left
      obtain ⟨r, hr⟩ := h.right
      obtain ⟨wt, hwt⟩ := h.weight
      obtain ⟨hck, -, -⟩ := einmixSides_iff.1 h.sides
      obtain ⟨y', h5, h6⟩ := einmix_contracts hf hl hr hwt hck h.made.letters (len := len) (n := n) hx hw
      rw [← h.made.einsum, h2] at h5
      cases h5
      rcases (h.bias_sizes h6.1 hv hc').2 h3 with h7 | h7 | h7
      · exact .inl h7
      · exact absurd h7 hc
      · exact .inr ⟨hpre, hvW, h7⟩
  · obtain ⟨L, R, len, hG, hF, hd⟩ := h.pre_sizes hcall hpre h1
    exact ⟨L, R, len, hG, hF.shape_eq, hd, fun n s hn _ => .inl (hF.kw_eq n s hn)⟩

end forward

end

end Einops
