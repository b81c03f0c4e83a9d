import Verif.Proofs.EinMixMake
import Verif.Proofs.Compose
import Verif.Props.Layers

/-!
# The forward pass of an `EinMix` layer
-/

namespace Einops

universe u
variable {α : Type u}

section
variable [PyUnicode]

/-! ### the rearrange layers -/

theorem call_reduce {call : Layer α → Tensor α → Py (Tensor α)} (hcall : LayerCall call) : ∃ b, MoveLawful b ∧
    ∀ {so : Nat → SetOrder} {pat : Str} {GL GR : List Elem} {kw : List (Str × Size)} {l : Layer α},
      (kw.map Prod.fst).Nodup → IsPattern pat GL GR → rearrangeLayer so pat kw = .ok l → ∀ x : Tensor α,
      (LayerRank GL x.ndim → ∀ so', call l x = reduce b so' (.one x) pat (.name "rearrange".toList) kw) ∧
      (¬ LayerRank GL x.ndim → call l x = .error .key) := by
  rcases hcall with ⟨E, b, hb, rfl⟩ | ⟨E, rfl⟩
  · refine ⟨b, hb.lawful, fun {so pat GL GR kw l} hk hp hl x => ⟨fun hr so' => ?_, fun hr => ?_⟩⟩
    · exact C31_layer_partial (isPattern_split hp).1 hk hp hl hr so'
    · exact (C31_other_dimensions (b := b) (isPattern_split hp).1 hp hl hr).1
  · refine ⟨torchBackend E true, torch_lawful _ _, fun {so pat GL GR kw l} hk hp hl x => ⟨fun hr so' => ?_, fun hr => ?_⟩⟩
    · exact C31_torch_partial (isPattern_split hp).1 hk hp hl hr (by decide) (by decide) (fun _ => rfl) E so'
    · exact (C31_other_dimensions (b := torchBackend E true) (isPattern_split hp).1 hp hl hr).2.1 E

omit [PyUnicode] in
theorem known_lengths {L R : List (List Axis)} {kw : List (Str × Size)} {shape : List Nat} {len len' : AxisMap}
    (h : Fits L R kw shape len) (h' : Fits L R kw shape len') {a : Axis} (ha : a ∈ L.flatten)
    (hk : isKnown (kw.map Prod.fst) a = true) : len a = len' a := by
  cases a with
  | anon sd i v => rw [h.number_eq _ _ _ (List.mem_append_left _ ha), h'.number_eq _ _ _ (List.mem_append_left _ ha)]
  | str n =>
    simp only [isKnown, decide_eq_true_eq] at hk
    obtain ⟨⟨n', s⟩, h1, rfl⟩ := List.mem_map.1 hk
    have e1 := h.kw_eq n' s h1
    have e2 := h'.kw_eq n' s h1
    exact Int.ofNat.inj (e1.trans e2.symm)

omit [PyUnicode] in
theorem determinate_congr {L R : List (List Axis)} {kw : List (Str × Size)} {shape : List Nat} {len len' : AxisMap}
    (h : Fits L R kw shape len) (h' : Fits L R kw shape len') (hd : Determinate L (kw.map Prod.fst) len) :
    Determinate L (kw.map Prod.fst) len' := by
  intro g hg hu
  have := hd g hg hu
  rwa [groupSize_congr (fun a ha => known_lengths h h' (List.mem_flatten.2 ⟨g, hg, (List.mem_filter.1 ha).1⟩)
    (List.mem_filter.1 ha).2)] at this

theorem layer_sound {call : Layer α → Tensor α → Py (Tensor α)} (hcall : LayerCall call) {so : Nat → SetOrder} {pat : Str}
    {GL GR : List Elem} {kw : List (Str × Size)} {l : Layer α} (hk : IntKw kw) (hp : IsPattern pat GL GR)
    (hE : EllipsisOK GL GR) (hl : rearrangeLayer so pat kw = .ok l) {x y : Tensor α} {L R : List (List Axis)}
    (hG : Groups GL GR x.ndim L R) {len : AxisMap} (hF : Fits L R kw x.shape len) (h : call l x = .ok y) :
    Moves len L R x y := by
  obtain ⟨b, hb, hc⟩ := call_reduce hcall
  obtain ⟨h1, h2⟩ := hc hk.nodup hp hl x
  by_cases hr : LayerRank GL x.ndim
  · have hred := h1 hr (so 0)
    rw [h] at hred
    obtain ⟨GL', GR', L', R', len', ha, hm⟩ := (move_iff hb (so 0) (isPattern_split hp).1 hk (.inl rfl)
      (fun h => by cases h) y).1 hred.symm
    obtain ⟨rfl, rfl⟩ := isPattern_unique hp ha.pattern
    obtain ⟨rfl, rfl⟩ := Groups.unique hp hE hG ha.prepared.groups
    have ha' : Accepted (.name "rearrange".toList) pat kw x.shape GL GR L R len :=
      ⟨hp, ha.prepared, hF, determinate_congr ha.fits hF ha.determinate⟩
    obtain ⟨y', h3, h4⟩ := ha'.moves (red := .name "rearrange".toList) hb hk (ha'.move_sub (.inl rfl))
    rw [h3 (so 0)] at hred
    cases hred
    exact h4
  · rw [h2 hr] at h
    cases h

theorem layer_succeeds {call : Layer α → Tensor α → Py (Tensor α)} (hcall : LayerCall call) {so : Nat → SetOrder} {pat : Str}
    {GL GR : List Elem} {kw : List (Str × Size)} {l : Layer α} (hk : IntKw kw) (hp : IsPattern pat GL GR)
    (hl : rearrangeLayer so pat kw = .ok l) {x : Tensor α} {L R : List (List Axis)}
    (hG : Groups GL GR x.ndim L R) {len : AxisMap} (hF : Fits L R kw x.shape len)
    (hd : Determinate L (kw.map Prod.fst) len) (hr : LayerRank GL x.ndim) :
    ∃ y, call l x = .ok y := by
  obtain ⟨b, hb, hc⟩ := call_reduce hcall
  have h1 := (hc hk.nodup hp hl x).1 hr (so 0)
  obtain ⟨-, l', r', -, hl', hr'⟩ := isPattern_split hp
  rcases rearrangeLayer_cases (α := α) hp so kw with ⟨-, L0, R0, hpr⟩ | ⟨he, -⟩
  swap
  · rw [hl] at he; cases he
  have hs : RearrangeSides GL GR := by
    have := hpr.sides
    rw [SidesOK, if_pos rfl] at this
    exact this
  have hu := (prepared_min hl' hs).1 ⟨L0, R0, hpr⟩
  have hprep : Prepared (.name "rearrange".toList) GL GR (kw.map Prod.fst) x.shape.length L R := by
    refine ⟨hpr.sides, hpr.keywords, hG, ?_⟩
    obtain ⟨n, -, rfl, -, -⟩ := hG
    refine (oneUnknown_spread (denote_noGroupEll (side_no_ell hl') hs.ellipsis.2)).2 ?_
    rw [denote_unitComp hs.units_left]
    exact hu.2
  have ha : Accepted (.name "rearrange".toList) pat kw x.shape GL GR L R len := ⟨hp, hprep, hF, hd⟩
  obtain ⟨y', h3, -⟩ := ha.moves (red := .name "rearrange".toList) hb hk (ha.move_sub (.inl rfl))
  exact ⟨y', h1.trans (h3 (so 0))⟩

/-! ### axes of the sides -/

theorem flatten_syms {G : List Elem} (hu : OnlyUnits G) (hG : ∀ w ∈ sideWords G, w ≠ ellipsisStr) (side n : Nat) :
    (spread (ellAxes n) (denote side 0 G)).flatten = symAxes n (sideSyms G) := by
  rw [denote_unitComp hu, spread_flatten, units_axes, flatMap_unitAxes]
  unfold sideSyms
  have : ∀ ws : List Str, (∀ w ∈ ws, w ≠ ellipsisStr) →
      (ws.map markAxis).flatMap (subEll (ellAxes n)) = symAxes n (ws.map symOf) := by
    intro ws hws
    induction ws with
    | nil => rfl
    | cons w ws ih =>
      rw [List.map_cons, List.flatMap_cons, ih (fun v hv => hws v (by simp [hv])), List.map_cons]
      unfold markAxis symOf
      by_cases hd : w = dots
      · rw [if_pos hd, if_pos hd]
        simp [symAxes, subEll]
      · rw [if_neg hd, if_neg hd]
        simp [symAxes, subEll, hws w (by simp)]
  exact this _ (fun w hw => hG w (List.mem_filter.1 hw).1)

theorem flat_syms {G : List Elem} (hG : ∀ w ∈ sideWords G, w ≠ ellipsisStr) (side n : Nat) :
    spread (ellAxes n) (denote side 0 (flatSide G)) = (symAxes n (sideSyms G)).map (fun a => [a]) := by
  rw [denote_unitComp (units_flat G)]
  unfold flatSide sideSyms
  have : ∀ ws : List Str, (∀ w ∈ ws, w ≠ ellipsisStr ∧ ¬ IsNumber w) →
      spread (ellAxes n) ((ws.map Elem.bare).map unitComp) = (symAxes n (ws.map symOf)).map (fun a => [a]) := by
    intro ws hws
    induction ws with
    | nil => rfl
    | cons w ws ih =>
      have ih' := ih (fun v hv => hws v (by simp [hv]))
      obtain ⟨h1, h2⟩ := hws w (by simp)
      rw [List.map_cons, List.map_cons, List.map_cons, unitComp]
      by_cases hd : w = dots
      · rw [if_pos hd]
        simp only [symAxes, symOf, hd, spread, ih', if_true, List.map_append]
      · rw [if_neg hd]
        simp only [symAxes, symOf, hd, spread, ih', unitAxes, h1, h2, if_false, List.map_cons, List.flatMap_cons, List.flatMap_nil, Axis.str.injEq, List.append_nil]
  exact this _ (fun w hw => ⟨hG w (mem_axisWords.1 hw).1, (mem_axisWords.1 hw).2⟩)

/-- without composite groups, the dimensions are the axes -/
theorem single_spread {G : List Elem} (hu : OnlyUnits G) (hp : ∀ ws, Elem.paren ws ∈ G → dots ∉ ws)
    (hG : ∀ w ∈ sideWords G, w ≠ ellipsisStr) (h : hasNonSingle (G.map unitComp) = false) (side n : Nat) :
    spread (ellAxes n) (denote side 0 G) = (spread (ellAxes n) (denote side 0 G)).flatten.map (fun a => [a]) := by
  rw [denote_unitComp hu]
  unfold hasNonSingle at h
  rw [List.any_eq_false] at h
  have key : ∀ c : List CompAxis, (∀ g, CompAxis.group g ∈ c → g.length = 1 ∧ Axis.str ellipsisStr ∉ g) →
      spread (ellAxes n) c = (spread (ellAxes n) c).flatten.map (fun a => [a]) := by
    intro c hc
    induction c with
    | nil => rfl
    | cons e c ih =>
      have ih' := ih (fun g hg => hc g (by simp [hg]))
      cases e with
      | ell =>
        rw [spread, List.flatten_append, List.map_append, ← ih']
        congr 1
        induction ellAxes n with
        | nil => rfl
        | cons a as ih => simp [← ih]
      | group g =>
        obtain ⟨h1, h2⟩ := hc g (by simp)
        obtain ⟨a, rfl⟩ := List.length_eq_one_iff.1 h1
        have h3 : a ≠ .str ellipsisStr := fun e => h2 (by simp [e])
        rw [spread, List.flatten_cons, List.map_append, ← ih']
        simp [h3]
  apply key
  intro g hg
  obtain ⟨e, he, hge⟩ := List.mem_map.1 hg
  have h1 := h _ hg
  have h1 : g.length = 1 := by
    by_contra hne
    exact h1 (decide_eq_true hne)
  refine ⟨h1, ?_⟩
  cases e with
  | bare w =>
    simp only [unitComp] at hge
    split at hge
    · cases hge
    · rename_i hd
      simp only [CompAxis.group.injEq] at hge
      rw [← hge]
      unfold unitAxes
      rw [if_neg hd]
      split
      · simp
      · simp only [List.mem_singleton, Axis.str.injEq]
        exact fun e => hG w (List.mem_flatMap.2 ⟨_, he, by simp [Elem.words]⟩) e.symm
  | paren ws =>
    simp only [unitComp, CompAxis.group.injEq] at hge
    rw [← hge, flatMap_unitAxes, List.mem_map]
    rintro ⟨w, hw, e⟩
    have hw' := (List.mem_filter.1 hw).1
    unfold markAxis at e
    split at e
    · rename_i hd
      exact hp ws he (hd ▸ hw')
    · exact hG w (List.mem_flatMap.2 ⟨_, he, hw'⟩) (by simpa using e)

/-! ### dimensions that are single axes -/

omit [PyUnicode] in
theorem singles_flatten (A : List Axis) : (A.map (fun a => [a])).flatten = A := by
  induction A with
  | nil => rfl
  | cons a A ih => simp [ih]

omit [PyUnicode] in
theorem singles_size (len : AxisMap) (A : List Axis) : (A.map (fun a => [a])).map (groupSize len) = A.map len := by
  rw [List.map_map]
  exact List.map_congr_left (fun a _ => by simp [groupSize])

omit [PyUnicode] in
theorem singles_at (x : Tensor α) (len env : AxisMap) (A : List Axis) :
    x.atAxes (A.map (fun a => [a])) len env = x.at? (A.map env) := by
  unfold Tensor.atAxes
  rw [List.map_map]
  congr 1
  exact List.map_congr_left (fun a _ => by simp [groupPos])

omit [PyUnicode] in
theorem moves_self {len : AxisMap} {L : List (List Axis)} {x : Tensor α} (h : x.shape = L.map (groupSize len)) :
    Moves len L L x x := by
  refine ⟨h, fun env henv => ?_⟩
  obtain ⟨v, hv⟩ := x.at?_isSome (i := L.map (groupPos len env)) (by
    rw [h]
    exact inBounds_groups (fun a ha => henv a (List.mem_append_left _ ha)))
  exact ⟨v, hv, hv⟩

theorem mem_sideSyms_ell {G : List Elem} : ESym.ell ∈ sideSyms G ↔ dots ∈ sideWords G := by
  unfold sideSyms
  rw [List.mem_map]
  constructor
  · rintro ⟨w, hw, h⟩
    unfold symOf at h
    split at h
    · rename_i hd; rw [← hd]; exact (mem_axisWords.1 hw).1
    · cases h
  · exact fun h => ⟨dots, mem_axisWords.2 ⟨h, dots_not_number⟩, by simp [symOf]⟩

theorem symNames_side (G : List Elem) : symNames (sideSyms G) = nameWords G := by
  unfold sideSyms nameWords
  induction axisWords G with
  | nil => rfl
  | cons w ws ih =>
    rw [List.map_cons]
    by_cases hd : w = dots
    · simp [symOf, hd, symNames, ih]
    · rw [List.filter_cons_of_pos (by simp [hd])]
      simp [symOf, hd, symNames, ih]

omit [PyUnicode] in
theorem no_anon {n : Nat} {t : List ESym} {sd i v : Nat} : Axis.anon sd i v ∉ symAxes n t := by
  rw [mem_symAxes]
  rintro (⟨-, h⟩ | ⟨w, -, h⟩)
  · rw [mem_ellAxes] at h
    obtain ⟨j, -, h⟩ := h
    cases h
  · cases h

/-! ### the layer before the contraction -/

structure PreCtx (GL : List Elem) (n : Nat) (L : List (List Axis)) (kw : List (Str × Size)) (x : Tensor α) (len : AxisMap) :
    Prop where
  side : ∃ l, IsSide false false l GL
  units : OnlyUnits GL
  ell : ∀ ws, Elem.paren ws ∈ GL → dots ∉ ws
  zero : dots ∉ sideWords GL → n = 0
  groups : L = spread (ellAxes n) (denote 0 0 GL)
  shape : x.shape = L.map (groupSize len)
  ints : IntKw kw
  sizes : ∀ n s, (n, s) ∈ kw → (len (.str n) : Int) = s.val

theorem PreCtx.facts {GL : List Elem} {n : Nat} {L : List (List Axis)} {kw : List (Str × Size)} {x : Tensor α} {len : AxisMap}
    (h : PreCtx GL n L kw x len) : L.flatten = symAxes n (sideSyms GL) ∧
    Groups GL (flatSide GL) x.ndim L (L.flatten.map (fun a => [a])) ∧
    Fits L (L.flatten.map (fun a => [a])) (preKw GL kw) x.shape len ∧ IntKw (preKw GL kw) := by
  obtain ⟨l, hl⟩ := h.side
  have hne : ∀ w ∈ sideWords GL, w ≠ ellipsisStr := fun w hw => ne_ell hl hw
  have h1 : L.flatten = symAxes n (sideSyms GL) := by rw [h.groups]; exact flatten_syms h.units hne 0 n
  refine ⟨h1, ⟨n, h.zero, h.groups, ?_, ?_⟩, ⟨h.shape, ?_, ?_⟩, ?_, ?_⟩
  · rw [h1, flat_syms hne]
  · simp [Tensor.ndim, h.shape]
  · exact fun m s hm => h.sizes m s (List.mem_filter.1 hm).1
  · intro sd i v hm
    rw [singles_flatten, h1, List.mem_append, or_self] at hm
    exact absurd hm no_anon
  · exact h.ints.nodup.sublist (List.Sublist.map _ List.filter_sublist)
  · exact fun p hp => h.ints.int p (List.mem_filter.1 hp).1

theorem pre_none {GL : List Elem} {n : Nat} {L : List (List Axis)} {kw : List (Str × Size)} {x : Tensor α}
    {len : AxisMap} (h : PreCtx GL n L kw x len) (hs : hasNonSingle (GL.map unitComp) = false) :
    Moves len L (L.flatten.map (fun a => [a])) x x := by
  obtain ⟨l, hl⟩ := h.side
  have h1 : L = L.flatten.map (fun a => [a]) := by
    rw [h.groups]
    exact single_spread h.units h.ell (fun w hw => ne_ell hl hw) hs 0 n
  rw [← h1]
  exact moves_self h.shape

theorem pre_sound {call : Layer α → Tensor α → Py (Tensor α)} (hcall : LayerCall call) {so : Nat → SetOrder} {GL : List Elem}
    {n : Nat} {L : List (List Axis)} {kw : List (Str × Size)} {x : Tensor α} {len : AxisMap} (h : PreCtx GL n L kw x len)
    {pre : Option (Layer α)} (hpre : PreLayer so GL kw pre) {x1 : Tensor α} (hx : callOpt call pre x = .ok x1) :
    Moves len L (L.flatten.map (fun a => [a])) x x1 := by
  obtain ⟨h1, hG, hF, hk⟩ := h.facts
  rcases hpre with ⟨rfl, hs⟩ | ⟨l, pat, rfl, hp, hl, -⟩
  · cases hx
    exact pre_none h hs
  · exact layer_sound hcall hk hp (sides_pre h.ell h.units).ellipsis hl hG hF hx

/-- the number of dimensions for which the layers have recipes -/
theorem rank_iff {GL : List Elem} (hl : ∃ l, IsSide false false l GL) (he : ∀ ws, Elem.paren ws ∈ GL → dots ∉ ws) {n side : Nat}
    (hn : dots ∉ sideWords GL → n = 0) :
    LayerRank GL (spread (ellAxes n) (denote side 0 GL)).length ↔ n < 8 := by
  obtain ⟨l, hl⟩ := hl
  unfold LayerRank
  have h2 := spread_length (side := side) (k := 0) (G := GL) (ellAxes n)
  rw [bare_count_of hl.one_ellipsis he, show (ellAxes n).length = n by simp [ellAxes]] at h2
  by_cases hd : dots ∈ sideWords GL
  · rw [if_pos hd] at h2 ⊢
    have : 1 ≤ GL.length := by
      rw [Nat.one_le_iff_ne_zero, Ne, List.length_eq_zero_iff]
      rintro rfl
      simp [sideWords] at hd
    omega
  · rw [if_neg hd] at h2 ⊢
    have := hn hd
    omega

theorem pre_result {call : Layer α → Tensor α → Py (Tensor α)} (hcall : LayerCall call) {so : Nat → SetOrder} {GL : List Elem}
    {n : Nat} {L : List (List Axis)} {kw : List (Str × Size)} {x : Tensor α} {len : AxisMap} (h : PreCtx GL n L kw x len)
    {pre : Option (Layer α)} (hpre : PreLayer so GL kw pre)
    (hnames : ∀ m ∈ kw.map Prod.fst, '…' ∉ m) (hd : Determinate L (kw.map Prod.fst) len) :
    (n < 8 ∨ pre = none → ∃ x1, callOpt call pre x = .ok x1) ∧
    (¬ (n < 8 ∨ pre = none) → callOpt call pre x = .error .key) := by
  obtain ⟨h1, hG, hF, hk⟩ := h.facts
  rcases hpre with ⟨rfl, hs⟩ | ⟨l, pat, rfl, hp, hl, -⟩
  · exact ⟨fun _ => ⟨x, rfl⟩, fun h => absurd (.inr rfl) h⟩
  have hr : LayerRank GL x.ndim ↔ n < 8 := by
    rw [← rank_iff h.side h.ell h.zero (side := 0), ← h.groups]
    simp [Tensor.ndim, h.shape]
  constructor
  · rintro (h8 | h)
    · refine layer_succeeds hcall hk hp hl hG hF ?_ (hr.2 h8)
      have hkn : ∀ a ∈ L.flatten, isKnown ((preKw GL kw).map Prod.fst) a = isKnown (kw.map Prod.fst) a := by
        intro a ha
        cases a with
        | anon => rfl
        | str m =>
          simp only [isKnown, decide_eq_decide, mem_preKw_names, and_iff_left_iff_imp]
          intro hm
          rw [h1, mem_symAxes, symNames_side] at ha
          rcases ha with ⟨-, ha⟩ | ⟨w, hw, e⟩
          · obtain ⟨c, l, e⟩ := ellAxes_long ha
            simp only [Axis.str.injEq] at e
            exact absurd (by rw [e]; simp) (hnames m hm)
          · cases e
            exact (List.mem_filter.1 hw).1
      intro g hg hu
      have hgm : ∀ a ∈ g, a ∈ L.flatten := fun a ha => List.mem_flatten.2 ⟨g, hg, ha⟩
      rw [List.filter_congr (fun a ha => hkn a (hgm a ha))]
      obtain ⟨a, ha, hu⟩ := hu
      exact hd g hg ⟨a, ha, by rw [← hkn a (hgm a ha)]; exact hu⟩
    · cases h
  · intro h
    obtain ⟨b, hb, hc⟩ := call_reduce hcall
    exact (hc hk.nodup hp hl x).2 (fun h' => h (.inl (hr.1 h')))

/-! ### the layer after the contraction -/

structure PostCtx (GR : List Elem) (n : Nat) (R : List (List Axis)) (y : Tensor α) (len : AxisMap) : Prop where
  side : ∃ r, IsSide false false r GR
  units : OnlyUnits GR
  zero : dots ∉ sideWords GR → n = 0
  groups : R = spread (ellAxes n) (denote 1 0 GR)
  shape : y.shape = R.flatten.map len

theorem PostCtx.facts {GR : List Elem} {n : Nat} {R : List (List Axis)} {y : Tensor α} {len : AxisMap}
    (h : PostCtx GR n R y len) : R.flatten = symAxes n (sideSyms GR) ∧
    Groups (flatSide GR) GR y.ndim (R.flatten.map (fun a => [a])) R ∧
    Fits (R.flatten.map (fun a => [a])) R [] y.shape len := by
  obtain ⟨l, hl⟩ := h.side
  have hne : ∀ w ∈ sideWords GR, w ≠ ellipsisStr := fun w hw => ne_ell hl hw
  have h1 : R.flatten = symAxes n (sideSyms GR) := by rw [h.groups]; exact flatten_syms h.units hne 1 n
  refine ⟨h1, ⟨n, ?_, ?_, h.groups, ?_⟩, ⟨?_, ?_, ?_⟩⟩
  · rw [dots_flat]; exact h.zero
  · rw [h1, flat_syms hne]
  · rw [Tensor.ndim, h.shape, List.length_map, List.length_map]
  · rw [singles_size]; exact h.shape
  · intro m s hm; cases hm
  · intro sd i v hm
    rw [singles_flatten, h1, List.mem_append, or_self] at hm
    exact absurd hm no_anon

omit [PyUnicode] in
theorem intKw_nil : IntKw [] := ⟨List.nodup_nil, fun _ h => nomatch h⟩

theorem post_sound {call : Layer α → Tensor α → Py (Tensor α)} (hcall : LayerCall call) {so : Nat → SetOrder} {GR : List Elem}
    {n : Nat} {R : List (List Axis)} {y : Tensor α} {len : AxisMap} (h : PostCtx GR n R y len)
    {post : Option (Layer α)} (hpost : PostLayer so GR post) {z : Tensor α} (hx : callOpt call post y = .ok z) :
    Moves len (R.flatten.map (fun a => [a])) R y z := by
  obtain ⟨h1, hG, hF⟩ := h.facts
  rcases hpost with ⟨rfl, hs, hp⟩ | ⟨l, pat, rfl, hp, hl, -⟩
  · cases hx
    obtain ⟨r, hr⟩ := h.side
    have h2 : R = R.flatten.map (fun a => [a]) := by
      rw [h.groups]
      exact single_spread h.units hp (fun w hw => ne_ell hr hw) hs 1 n
    have h3 := moves_self (len := len) (L := R) (x := y) (by rw [h2, singles_size]; exact h.shape)
    rwa [← h2]
  · exact layer_sound hcall intKw_nil hp (sides_post h.units).ellipsis hl hG hF hx

theorem post_result {call : Layer α → Tensor α → Py (Tensor α)} (hcall : LayerCall call) {so : Nat → SetOrder} {GR : List Elem}
    {n : Nat} {R : List (List Axis)} {y : Tensor α} {len : AxisMap} (h : PostCtx GR n R y len)
    {post : Option (Layer α)} (hpost : PostLayer so GR post) :
    (n < 8 ∨ post = none → ∃ z, callOpt call post y = .ok z) ∧
    (¬ (n < 8 ∨ post = none) → callOpt call post y = .error .key) := by
  obtain ⟨h1, hG, hF⟩ := h.facts
  rcases hpost with ⟨rfl, hs, hp⟩ | ⟨l, pat, rfl, hp, hl, -⟩
  · exact ⟨fun _ => ⟨y, rfl⟩, fun h => absurd (.inr rfl) h⟩
  obtain ⟨r, hr⟩ := h.side
  have hr : LayerRank (flatSide GR) y.ndim ↔ n < 8 := by
    rw [← rank_iff (side := 0) ⟨_, isSide_flat_left hr⟩ (fun ws hw => absurd hw no_paren_bare) (by rw [dots_flat]; exact h.zero),
      flat_syms (fun w hw => ne_ell hr hw), ← h1, Tensor.ndim, h.shape, List.length_map, List.length_map]
  constructor
  · rintro (h8 | h)
    · refine layer_succeeds hcall intKw_nil hp hl hG hF ?_ (hr.2 h8)
      intro g hg hu
      obtain ⟨a, ha, rfl⟩ := List.mem_map.1 hg
      obtain ⟨a', ha', hu⟩ := hu
      rw [List.mem_singleton] at ha'
      subst ha'
      rw [List.filter_cons_of_neg (by rw [List.map_nil] at hu; simp [hu])]
      simp [groupSize]
    · cases h
  · intro h
    obtain ⟨b, hb, hc⟩ := call_reduce hcall
    exact (hc intKw_nil.nodup hp hl y).2 (fun h' => h (.inl (hr.1 h')))

/-! ### the contraction -/

theorem weight_axes {GW : List Elem} (hn : NoUnits GW) (hd : dots ∉ sideWords GW) (n : Nat) :
    symAxes n (sideSyms GW) = (sideWords GW).map Axis.str := by
  unfold sideSyms axisWords
  rw [List.filter_eq_self.2 (fun w hw => by simpa using hn w hw)]
  revert hd
  induction sideWords GW with
  | nil => intro _; rfl
  | cons w ws ih =>
    intro hd
    have hw : w ≠ dots := fun h => hd (by simp [h])
    rw [List.map_cons, symOf, if_neg hw, symAxes, ih (fun h => hd (by simp [h]))]
    rfl

omit [PyUnicode] in
theorem weight_dims {kw : List (Str × Size)} {len : AxisMap} (hsz : ∀ n s, (n, s) ∈ kw → (len (.str n) : Int) = s.val)
    {ws : List Str} {ds : List Nat} (h : List.Forall₂ (WeightDim kw) ws ds) : ds = (ws.map Axis.str).map len := by
  induction h with
  | nil => rfl
  | cons h1 _ ih =>
    obtain ⟨s, h2, h3⟩ := h1
    rw [List.map_cons, List.map_cons, ← ih]
    congr 1
    have := hsz _ _ h2
    omega

theorem count_sideSyms {s : Str} {G : List Elem} (h : IsSide false false s G) : (sideSyms G).count .ell ≤ 1 := by
  refine le_trans ?_ h.one_ellipsis
  have : ∀ ws : List Str, (ws.map symOf).count .ell = ws.count dots := by
    intro ws
    induction ws with
    | nil => rfl
    | cons w ws ih =>
      rw [List.map_cons, List.count_cons, List.count_cons, ih]
      by_cases hd : w = dots <;> simp [symOf, hd]
  unfold sideSyms
  rw [this]
  exact List.Sublist.count_le _ List.filter_sublist

section contraction
variable [CommSemiring α]

theorem einmix_contracts {f : Str → List (Tensor α) → Py (Tensor α)} (hf : EinsumLawful f) {GL GR GW : List Elem} {l r w : Str}
    (hl : IsSide false false l GL) (hr : IsSide false false r GR) (hw : IsSide false false w GW) (hc : ChecksOK GL GR GW)
    (h26 : (einmixNames GL GR GW).length ≤ 26) {len : AxisMap} {n : Nat} {x1 wt : Tensor α}
    (hx : x1.shape = (symAxes n (sideSyms GL)).map len) (hwt : wt.shape = (symAxes n (sideSyms GW)).map len) :
    ∃ y, f (writeEinsum (letterOf (einmixNames GL GR GW)) [sideSyms GL, sideSyms GW] (sideSyms GR)) [x1, wt] = .ok y ∧
      Contracts len [symAxes n (sideSyms GL), symAxes n (sideSyms GW)] (symAxes n (sideSyms GR)) [x1, wt] y := by
  have hmem : ∀ w', w' ∈ einmixNames GL GR GW ↔ w' ∈ nameWords GL ++ nameWords GR ++ nameWords GW := fun w' =>
    mem_mapped (fun v hv => ne_ell hl hv) (fun v hv => ne_ell hr hv) (fun v hv => ne_ell hw hv)
  have h1 := lawful_letters hf (terms := [sideSyms GL, sideSyms GW]) (out := sideSyms GR) (K := einmixNames GL GR GW)
    (by omega) ?_ ?_ ?_ (len := len) (n := n) (xs := [x1, wt]) ?_
  · exact h1
  · intro t ht v hv
    rw [hmem]
    simp only [List.mem_cons, List.not_mem_nil, or_false] at ht
    rcases ht with rfl | rfl | rfl <;> rw [symNames_side] at hv <;> simp [hv]
  · intro v hv c t e
    rw [hmem] at hv
    simp only [List.mem_append, mem_nameWords] at hv
    have : '…' ∉ v := by
      rcases hv with (⟨hv, -⟩ | ⟨hv, -⟩) | ⟨hv, -⟩
      · exact side_no_ell hl v hv
      · exact side_no_ell hr v hv
      · exact side_no_ell hw v hv
    exact this (by rw [e]; simp)
  · intro t ht
    simp only [List.mem_cons, List.not_mem_nil, or_false] at ht
    rcases ht with rfl | rfl | rfl
    · exact count_sideSyms hr
    · exact count_sideSyms hl
    · exact count_sideSyms hw
  · refine ⟨by simp, .cons hx (.cons hwt .nil), ?_, ?_, ?_⟩
    · rw [← flatten_syms hc.units_right (fun v hv => ne_ell hr hv) 1 n]
      exact side_flatten_nodup hr 1 n
    · intro v hv
      rw [symNames_side, mem_nameWords] at hv
      rcases hc.right_known v (mem_axisWords.2 ⟨hv.1, hv.2.1⟩) with h | h
      · exact ⟨sideSyms GL, by simp, by rw [symNames_side, mem_nameWords]; exact ⟨h, hv.2⟩⟩
      · exact ⟨sideSyms GW, by simp, by rw [symNames_side, mem_nameWords]; exact ⟨h, hv.2⟩⟩
    · simp only [List.mem_cons, List.not_mem_nil, or_false, exists_eq_or_imp, exists_eq_left, mem_sideSyms_ell]
      rw [← hc.ellipsis_both]
      exact ⟨.inl, fun h => h.resolve_right hc.weight_fixed⟩

/-! ### the bias -/

theorem right_split {GR GB : List Elem} {r : Str} (hr : IsSide false false r GR) {names : List Str} (hb : BiasOK GR GB names)
    (n : Nat) : ∃ P E Q, symAxes n (sideSyms GR) = P.map Axis.str ++ E ++ Q.map Axis.str ∧ nameWords GR = P ++ Q ∧
      ∀ w ∈ P, w ∉ sideWords GB := by
  have hno : ∀ ws : List Str, dots ∉ ws → symAxes n (ws.map symOf) = ws.map Axis.str ∧ ws.filter (fun w => decide (w ≠ dots)) = ws := by
    intro ws h
    refine ⟨?_, List.filter_eq_self.2 (fun w hw => by simpa using fun e : w = dots => h (e ▸ hw))⟩
    induction ws with
    | nil => rfl
    | cons w ws ih =>
      have hw : w ≠ dots := fun e => h (by simp [e])
      rw [List.map_cons, symOf, if_neg hw, symAxes, ih (fun h' => h (by simp [h']))]
      rfl
  by_cases hd : dots ∈ axisWords GR
  · obtain ⟨P, Q, hPQ⟩ := List.append_of_mem hd
    have hcount : (axisWords GR).count dots ≤ 1 :=
      (List.Sublist.count_le _ List.filter_sublist).trans hr.one_ellipsis
    rw [hPQ, List.count_append, List.count_cons_self] at hcount
    have hP : dots ∉ P := by rw [← List.count_eq_zero]; omega
    have hQ : dots ∉ Q := by rw [← List.count_eq_zero]; omega
    have happ : ∀ s t : List ESym, symAxes n (s ++ t) = symAxes n s ++ symAxes n t := by
      intro s t
      induction s with
      | nil => rfl
      | cons a s ih => cases a <;> simp [symAxes, ih]
    refine ⟨P, ellAxes n, Q, ?_, ?_, ?_⟩
    · unfold sideSyms
      rw [hPQ, List.map_append, happ, (hno P hP).1, List.map_cons, symOf, if_pos rfl, symAxes, (hno Q hQ).1,
        List.append_assoc]
    · unfold nameWords
      rw [hPQ, List.filter_append, (hno P hP).2, List.filter_cons_of_neg (by simp), (hno Q hQ).2]
    · intro w hw hwb
      have hw' : w ∈ axisWords GR := by rw [hPQ]; simp [hw]
      have hd' : dots ∈ sideWords GR := (mem_axisWords.1 hd).1
      obtain ⟨p, q, hpq⟩ := List.append_of_mem hd'
      refine hb.after p q hpq w (mem_axisWords.2 ⟨hwb, (mem_axisWords.1 hw').2⟩) ?_
      have e : axisWords GR = p.filter (fun w => decide (¬ IsNumber w)) ++ dots :: q.filter (fun w => decide (¬ IsNumber w)) := by
        unfold axisWords
        rw [hpq, List.filter_append, List.filter_cons_of_pos (by simpa using dots_not_number)]
      have hc1 : (sideWords GR).count dots ≤ 1 := hr.one_ellipsis
      rw [hpq, List.count_append, List.count_cons_self] at hc1
      have hp0 : dots ∉ p := by rw [← List.count_eq_zero]; omega
      have hp1 : dots ∉ p.filter (fun w => decide (¬ IsNumber w)) := fun h => hp0 (List.mem_filter.1 h).1
      have hPp : P = p.filter (fun w => decide (¬ IsNumber w)) := by
        rw [e] at hPQ
        have key : ∀ (A B A' B' : List Str), dots ∉ A → dots ∉ A' → A ++ dots :: B = A' ++ dots :: B' → A = A' := by
          intro A
          induction A with
          | nil =>
            intro B A' B' _ h2 h
            cases A' with
            | nil => rfl
            | cons a A' => simp at h; exact absurd (by simp [h.1]) h2
          | cons a A ih =>
            intro B A' B' h1 h2 h
            cases A' with
            | nil => simp at h; exact absurd (by simp [h.1]) h1
            | cons a' A' =>
              simp only [List.cons_append, List.cons.injEq] at h
              rw [h.1, ih B A' B' (fun h' => h1 (by simp [h'])) (fun h' => h2 (by simp [h'])) h.2]
        exact (key _ _ _ _ hp1 hP hPQ).symm
      rw [hPp] at hw
      exact (List.mem_filter.1 hw).1
  · refine ⟨[], [], axisWords GR, ?_, ?_, by simp⟩
    · unfold sideSyms
      rw [(hno _ hd).1]
      rfl
    · unfold nameWords
      rw [(hno _ hd).2]
      rfl

/-- coordinates of the bias -/
def biasCoord (GB : List Elem) (env : AxisMap) (w : Str) : Nat := if w ∈ sideWords GB then env (.str w) else 0

omit [CommSemiring α] [PyUnicode] in
theorem bias_front {GB : List Elem} {kw : List (Str × Size)} {P : List Str} {bp : List Nat}
    (h : List.Forall₂ (BiasDim GB kw) P bp) (hP : ∀ w ∈ P, w ∉ sideWords GB) (env : AxisMap) {X : List Nat}
    (hX : X.length = P.length) :
    List.zipWith (fun j d => if d = 1 then 0 else j) X bp = P.map (biasCoord GB env) ∧ ∀ d ∈ bp, d = 1 := by
  induction h generalizing X with
  | nil => simp
  | @cons w d P bp h1 _ ih =>
    cases X with
    | nil => simp at hX
    | cons j X =>
      have hw := hP w (by simp)
      have hd : d = 1 := by
        rcases h1 with ⟨h, -⟩ | ⟨-, h⟩
        · exact absurd h hw
        · exact h
      obtain ⟨h2, h3⟩ := ih (fun v hv => hP v (by simp [hv])) (X := X) (by simpa using hX)
      refine ⟨?_, ?_⟩
      · rw [List.zipWith_cons_cons, h2, if_pos hd, List.map_cons, biasCoord, if_neg hw]
      · intro d' hd'
        rcases List.mem_cons.1 hd' with rfl | hd'
        · exact hd
        · exact h3 d' hd'

omit [CommSemiring α] [PyUnicode] in
theorem bias_back {GB : List Elem} {kw : List (Str × Size)} {len : AxisMap}
    (hsz : ∀ n s, (n, s) ∈ kw → (len (.str n) : Int) = s.val) {Q : List Str} {bq : List Nat}
    (h : List.Forall₂ (BiasDim GB kw) Q bq) {env : AxisMap} (henv : InRange len (Q.map Axis.str) env) :
    List.zipWith (fun j d => if d = 1 then 0 else j) ((Q.map Axis.str).map env) bq = Q.map (biasCoord GB env) := by
  induction h with
  | nil => rfl
  | @cons w d Q bq h1 _ ih =>
    rw [List.map_cons, List.map_cons, List.zipWith_cons_cons, ih (fun a ha => henv a (by simp [ha])), List.map_cons]
    congr 1
    unfold biasCoord
    rcases h1 with ⟨hw, s, h2, h3⟩ | ⟨hw, rfl⟩
    · rw [if_pos hw]
      have h4 := hsz _ _ h2
      have h5 := henv (.str w) (by simp)
      split
      · omega
      · rfl
    · rw [if_neg hw, if_pos rfl]

omit [CommSemiring α] [PyUnicode] in
theorem bias_zip {GB : List Elem} {kw : List (Str × Size)} {len : AxisMap}
    (hsz : ∀ n s, (n, s) ∈ kw → (len (.str n) : Int) = s.val) {Q : List Str} {bq : List Nat}
    (h : List.Forall₂ (BiasDim GB kw) Q bq) : ∀ p ∈ bq.zip ((Q.map Axis.str).map len), p.1 = 1 ∨ p.1 = p.2 := by
  induction h with
  | nil => intro p hp; cases hp
  | @cons w d Q bq h1 _ ih =>
    intro p hp
    rw [List.map_cons, List.map_cons, List.zip_cons_cons, List.mem_cons] at hp
    rcases hp with rfl | hp
    · rcases h1 with ⟨-, s, h2, h3⟩ | ⟨-, rfl⟩
      · right
        have := hsz _ _ h2
        simp only
        omega
      · exact .inl rfl
    · exact ih p hp

omit [PyUnicode] in
theorem bias_inBounds {GB : List Elem} {kw : List (Str × Size)} {len : AxisMap}
    (hsz : ∀ n s, (n, s) ∈ kw → (len (.str n) : Int) = s.val) {ws : List Str} {bs : List Nat}
    (h : List.Forall₂ (BiasDim GB kw) ws bs) {env : AxisMap} (henv : InRange len (ws.map Axis.str) env) :
    inBounds (ws.map (biasCoord GB env)) bs = true := by
  induction h with
  | nil => rfl
  | @cons w d ws bs h1 _ ih =>
    rw [List.map_cons, inBounds_cons]
    refine ⟨?_, ih (fun a ha => henv a (by simp [ha]))⟩
    unfold biasCoord
    rcases h1 with ⟨hw, s, h2, h3⟩ | ⟨hw, rfl⟩
    · rw [if_pos hw]
      have h4 := hsz _ _ h2
      have h5 := henv (.str w) (by simp)
      omega
    · rw [if_neg hw]
      omega

theorem addBias_result {GR GB : List Elem} {r : Str} (hr : IsSide false false r GR) (hu : OnlyUnits GR) {kw : List (Str × Size)}
    (hb : BiasOK GR GB (kw.map Prod.fst)) {len : AxisMap} (hsz : ∀ n s, (n, s) ∈ kw → (len (.str n) : Int) = s.val)
    {n : Nat} {y b : Tensor α} (hy : y.shape = (symAxes n (sideSyms GR)).map len)
    (hbs : List.Forall₂ (BiasDim GB kw) (nameWords GR) b.shape) :
    ∃ z, y.addBias b = .ok z ∧ z.shape = y.shape ∧ ∀ env, InRange len (symAxes n (sideSyms GR)) env →
      z.at? ((symAxes n (sideSyms GR)).map env) =
        some (entry y ((symAxes n (sideSyms GR)).map env) + biasAt GR GB (some b) env) := by
  obtain ⟨P, E, Q, hA, hPQ, hP⟩ := right_split hr hb n
  generalize hbsh : b.shape = bsh at hbs
  rw [hPQ] at hbs
  obtain ⟨bp, bq, hbp, hbq, rfl⟩ : ∃ bp bq, List.Forall₂ (BiasDim GB kw) P bp ∧ List.Forall₂ (BiasDim GB kw) Q bq ∧
      bsh = bp ++ bq := by
    refine ⟨bsh.take P.length, bsh.drop P.length, ?_, ?_, (List.take_append_drop _ _).symm⟩
    · have := List.forall₂_take P.length hbs
      rwa [List.take_left] at this
    · have := List.forall₂_drop P.length hbs
      rwa [List.drop_left] at this
  have hlp := hbp.length_eq
  have hlq := hbq.length_eq
  have hyl : y.ndim = P.length + E.length + Q.length := by simp [Tensor.ndim, hy, hA, Nat.add_assoc]
  have hbl : b.ndim = P.length + Q.length := by simp [Tensor.ndim, hbsh, hlp, hlq]
  have hk : y.ndim - b.ndim = E.length := by omega
  have hdrop : ∀ {β : Type} (g : Axis → β), ((symAxes n (sideSyms GR)).map g).drop E.length =
      ((P.map Axis.str).map g ++ E.map g).drop E.length ++ (Q.map Axis.str).map g := by
    intro β g
    rw [hA, List.map_append, List.map_append, List.drop_append_of_le_length (by simp)]
  have hXl : ∀ {β : Type} (g : Axis → β), (((P.map Axis.str).map g ++ E.map g).drop E.length).length = P.length := by
    intro β g; simp
  have hcoord : ∀ env, InRange len (symAxes n (sideSyms GR)) env →
      List.zipWith (fun j d => if d = 1 then 0 else j) (((symAxes n (sideSyms GR)).map env).drop E.length) (bp ++ bq) =
        (P ++ Q).map (biasCoord GB env) := by
    intro env henv
    rw [hdrop, List.zipWith_append (by rw [hXl, hlp]), (bias_front hbp hP env (hXl env)).1,
      bias_back hsz hbq (fun a ha => henv a (by rw [hA]; simp only [List.mem_append]; exact .inr ha)), List.map_append]
  have hcond : b.ndim ≤ y.ndim ∧ ∀ p ∈ b.shape.zip (y.shape.drop (y.ndim - b.ndim)), p.1 = 1 ∨ p.1 = p.2 := by
    refine ⟨by omega, ?_⟩
    rw [hk, hbsh, hy, hdrop, List.zip_append (by rw [hXl, hlp])]
    intro p hp
    rcases List.mem_append.1 hp with hp | hp
    · exact .inl ((bias_front hbp hP (fun _ => 0) (hXl len)).2 _ (List.of_mem_zip hp).1)
    · exact bias_zip hsz hbq p hp
  have hnd : (symAxes n (sideSyms GR)).Nodup := by
    rw [← flatten_syms hu (fun v hv => ne_ell hr hv) 1 n]
    exact side_flatten_nodup hr 1 n
  have hbin : ∀ env, InRange len (symAxes n (sideSyms GR)) env → inBounds ((P ++ Q).map (biasCoord GB env)) b.shape = true := by
    intro env henv
    rw [hbsh]
    refine bias_inBounds hsz hbs (fun a ha => henv a ?_)
    rw [hA]
    simp only [List.map_append, List.mem_append] at ha ⊢
    tauto
  let co : List Nat → List Nat := fun i => List.zipWith (fun j d => if d = 1 then 0 else j) (i.drop E.length) b.shape
  obtain ⟨z, hz1, hz2, hz3⟩ := Tensor.build_eq_ok (shape := y.shape)
    (f := fun i => (y.getE i).bind (fun u => (b.getE (co i)).bind (fun v => .ok (u + v))))
    (fun i => entry y i + entry b (co i)) (by
      intro i hi
      have hi' := mem_indices.2 hi
      rw [hy, ← loops_indices hnd (fun _ => 0)] at hi'
      obtain ⟨env, he, rfl⟩ := List.mem_map.1 hi'
      have henv := (mem_loops he).2 hnd
      obtain ⟨u, hu⟩ := y.at?_isSome hi
      have hco : co ((symAxes n (sideSyms GR)).map env) = (P ++ Q).map (biasCoord GB env) := by
        simp only [co, hbsh]
        exact hcoord env henv
      obtain ⟨v, hv⟩ := b.at?_isSome (hbin env henv)
      rw [hco, (y.getE_eq_ok).2 hu, (b.getE_eq_ok).2 hv, entry, entry, hu, hv]
      rfl)
  refine ⟨z, ?_, hz2, ?_⟩
  · unfold Tensor.addBias
    simp only
    rw [if_pos hcond, hk]
    exact hz1
  · intro env henv
    rw [hz3 _ (by rw [hy]; exact inBounds_map.2 henv)]
    have hco : co ((symAxes n (sideSyms GR)).map env) = (P ++ Q).map (biasCoord GB env) := by
      simp only [co, hbsh]
      exact hcoord env henv
    rw [hco]
    unfold biasAt
    rw [hPQ]
    rfl

/-! ### the whole layer -/

omit [PyUnicode] in
theorem mixes_of {len : AxisMap} {L R : List (List Axis)} {W : List Axis} {x w x1 y0 y1 z : Tensor α} {c : AxisMap → α}
    (h1 : Moves len L (L.flatten.map (fun a => [a])) x x1) (h2 : Contracts len [L.flatten, W] R.flatten [x1, w] y0)
    (h3 : ∀ env, InRange len R.flatten env → y1.at? (R.flatten.map env) = some (entry y0 (R.flatten.map env) + c env))
    (h4 : Moves len (R.flatten.map (fun a => [a])) R y1 z) : Mixes len L W R x w c z := by
  refine ⟨h4.1, fun S hS hmem env henv => ?_⟩
  obtain ⟨v, h5, h6⟩ := h4.2 env (fun a ha => henv a (by
    rw [singles_flatten, List.mem_append, or_self] at ha; exact ha))
  rw [singles_at, h3 env henv] at h5
  rw [h6, ← h5, entry, h2.2 S hS (fun a => by rw [hmem]; simp) env henv]
  simp only [Option.getD_some]
  congr 3
  apply List.map_congr_left
  intro e he
  obtain ⟨he1, he2⟩ := mem_loops he
  have hin : InRange len L.flatten e := by
    intro a ha
    by_cases haS : a ∈ S
    · exact he2 hS a haS
    · rw [he1 a haS]
      refine henv a ?_
      by_contra haR
      exact haS ((hmem a).2 ⟨.inl ha, haR⟩)
  obtain ⟨u, h7, h8⟩ := h1.2 e (fun a ha => hin a (by
    rw [singles_flatten, List.mem_append, or_self] at ha; exact ha))
  rw [singles_at] at h8
  simp only [termProd, List.zipWith_cons_cons, List.zipWith_nil_left, List.prod_cons, List.prod_nil, mul_one, entry, h7, h8,
    Option.getD_some]

/-- what is assumed of a call of the layer -/
structure MixCall (GL GR GW : List Elem) (bias : Option Str) (kw : List (Str × Size)) (m : EinMix α) (L R : List (List Axis))
    (len : AxisMap) (x w : Tensor α) (b : Option (Tensor α)) : Prop where
  left : ∃ l, IsSide false false l GL
  right : ∃ r, IsSide false false r GR
  weight : ∃ w, IsSide false false w GW
  sides : EinmixSides GL GR GW (kw.map Prod.fst)
  units : NoUnits GW
  bias_ok : ∀ t, bias = some t → ∃ GB, IsSide false false t GB ∧ BiasOK GR GB (kw.map Prod.fst)
  ints : IntKw kw
  groups : Groups GL GR x.ndim L R
  fits : Fits L R kw x.shape len
  weight_shape : w.shape = m.weightShape
  bias_shape : b.map Tensor.shape = m.biasShape

theorem MixCall.mid {f : Str → List (Tensor α) → Py (Tensor α)} (hf : EinsumLawful f) {so : Nat → SetOrder} {GL GR GW : List Elem}
    {bias : Option Str} {kw : List (Str × Size)} {m : EinMix α} {L R : List (List Axis)} {len : AxisMap} {x w : Tensor α}
    {b : Option (Tensor α)} (h : MixCall GL GR GW bias kw m L R len x w b) (hm : Made so GL GR GW bias kw m) {GB : List Elem}
    (hGB : ∀ t, bias = some t → IsSide false false t GB) :
    ∃ n, PreCtx GL n L kw x len ∧ (dots ∉ sideWords GR → n = 0) ∧ R = spread (ellAxes n) (denote 1 0 GR) ∧
    ∀ x1, Moves len L (L.flatten.map (fun a => [a])) x x1 →
      ∃ y0 y1, f m.einsumPattern [x1, w] = .ok y0 ∧ addOptBias y0 b = .ok y1 ∧
        Contracts len [L.flatten, (sideWords GW).map Axis.str] R.flatten [x1, w] y0 ∧ y1.shape = R.flatten.map len ∧
        ∀ env, InRange len R.flatten env →
          y1.at? (R.flatten.map env) = some (entry y0 (R.flatten.map env) + biasAt GR GB b env) := by
  obtain ⟨n, hn, hL, hR, hlen⟩ := h.groups
  obtain ⟨l, hl⟩ := h.left
  obtain ⟨r, hr⟩ := h.right
  obtain ⟨wt, hwt⟩ := h.weight
  obtain ⟨hc, hu, hz⟩ := einmixSides_iff.1 h.sides
  have hpc : PreCtx GL n L kw x len := ⟨⟨l, hl⟩, hc.units_left, hc.ellipsis_left, hn, hL, h.fits.shape_eq, h.ints, h.fits.kw_eq⟩
  have hLs := hpc.facts.1
  have hRs : R.flatten = symAxes n (sideSyms GR) := by
    rw [hR]; exact flatten_syms hc.units_right (fun v hv => ne_ell hr hv) 1 n
  have hW : symAxes n (sideSyms GW) = (sideWords GW).map Axis.str := weight_axes h.units hc.weight_fixed n
  refine ⟨n, hpc, fun hd => hn (fun h' => hd (hc.ellipsis_both.1 h')), hR, fun x1 hx1 => ?_⟩
  obtain ⟨y0, h1, h2⟩ := einmix_contracts hf hl hr hwt hc hm.letters (len := len) (n := n) (x1 := x1) (wt := w)
    (by rw [hx1.1, singles_size, hLs])
    (by rw [h.weight_shape, hW]; exact weight_dims h.fits.kw_eq hm.params.weight)
  rw [← hLs, ← hRs, hW] at h2
  rw [← hm.einsum] at h1
  have hb := h.bias_shape
  cases b with
  | none =>
    refine ⟨y0, y0, h1, rfl, h2, h2.1, fun env henv => ?_⟩
    obtain ⟨v, hv⟩ := y0.at?_isSome (i := R.flatten.map env) (by rw [h2.1]; exact inBounds_map.2 henv)
    rw [hv, entry, hv]
    simp [biasAt]
  | some b =>
    cases hbias : bias with
    | none => rw [hm.params.no_bias hbias] at hb; cases hb
    | some t =>
      obtain ⟨bs, h3, h4⟩ := hm.params.bias t GB hbias (hGB t hbias)
      rw [h3, Option.map_some, Option.some.injEq] at hb
      obtain ⟨GB', h5, h6⟩ := h.bias_ok t hbias
      rw [← IsSide.unique (hGB t hbias) h5] at h6
      obtain ⟨z, h7, h8, h9⟩ := addBias_result hr hc.units_right h6 h.fits.kw_eq (n := n) (y := y0) (b := b)
        (by rw [h2.1, hRs]) (by rw [hb]; exact h4)
      rw [← hRs] at h9
      exact ⟨y0, z, h1, h7, h2, by rw [h8, h2.1], h9⟩

theorem forward_sound {call : Layer α → Tensor α → Py (Tensor α)} (hcall : LayerCall call)
    {f : Str → List (Tensor α) → Py (Tensor α)} (hf : EinsumLawful f) {so : Nat → SetOrder} {GL GR GW : List Elem}
    {bias : Option Str} {kw : List (Str × Size)} {m : EinMix α} {L R : List (List Axis)} {len : AxisMap} {x w : Tensor α}
    {b : Option (Tensor α)} (h : MixCall GL GR GW bias kw m L R len x w b) (hm : Made so GL GR GW bias kw m) {GB : List Elem}
    (hGB : ∀ t, bias = some t → IsSide false false t GB) {y : Tensor α} (hy : m.forward call f w b x = .ok y) :
    Mixes len L ((sideWords GW).map Axis.str) R x w (biasAt GR GB b) y := by
  obtain ⟨n, hpc, hn, hR, hmid⟩ := h.mid hf hm hGB
  unfold EinMix.forward at hy
  cases hx1 : callOpt call m.pre x with
  | error e => rw [hx1] at hy; cases hy
  | ok x1 =>
    rw [hx1] at hy
    have h1 := pre_sound hcall hpc hm.pre hx1
    obtain ⟨y0, y1, h2, h3, h4, h5, h6⟩ := hmid x1 h1
    simp only [h2, h3] at hy
    have hqc : PostCtx GR n R y1 len := ⟨h.right, h.sides.units_right, hn, hR, h5⟩
    exact mixes_of h1 h4 h6 (post_sound hcall hqc hm.post hy)

theorem forward_result {call : Layer α → Tensor α → Py (Tensor α)} (hcall : LayerCall call)
    {f : Str → List (Tensor α) → Py (Tensor α)} (hf : EinsumLawful f) {so : Nat → SetOrder} {GL GR GW : List Elem}
    {bias : Option Str} {kw : List (Str × Size)} {m : EinMix α} {L R : List (List Axis)} {len : AxisMap} {x w : Tensor α}
    {b : Option (Tensor α)} (h : MixCall GL GR GW bias kw m L R len x w b) (hm : Made so GL GR GW bias kw m)
    (hd : Determinate L (kw.map Prod.fst) len) :
    (LayerRank GL x.ndim ∨ m.pre = none ∧ m.post = none → ∃ y, m.forward call f w b x = .ok y) ∧
    (¬ (LayerRank GL x.ndim ∨ m.pre = none ∧ m.post = none) → m.forward call f w b x = .error .key) := by
  obtain ⟨GB, hGB⟩ : ∃ GB, ∀ t, bias = some t → IsSide false false t GB := by
    cases hb : bias with
    | none => exact ⟨[], fun t h => by cases h⟩
    | some t =>
      obtain ⟨GB, h1, -⟩ := h.bias_ok t hb
      exact ⟨GB, fun t' h' => by cases h'; exact h1⟩
  obtain ⟨n, hpc, hn, hR, hmid⟩ := h.mid hf hm hGB
  have hnames : ∀ k ∈ kw.map Prod.fst, '…' ∉ k := by
    intro k hk
    rcases h.sides.sizes_used k hk with h' | h'
    · obtain ⟨l, hl⟩ := h.left
      exact side_no_ell hl k (mem_nameWords.1 h').1
    · obtain ⟨l, hl⟩ := h.weight
      exact side_no_ell hl k (mem_nameWords.1 h').1
  have hr : LayerRank GL x.ndim ↔ n < 8 := by
    rw [← rank_iff hpc.side hpc.ell hpc.zero (side := 0), ← hpc.groups]
    simp [Tensor.ndim, hpc.shape]
  rw [hr]
  obtain ⟨hp1, hp2⟩ := pre_result hcall hpc hm.pre hnames hd
  have hrest : ∀ x1, callOpt call m.pre x = .ok x1 → ∃ y1, m.forward call f w b x = callOpt call m.post y1 ∧
      PostCtx GR n R y1 len := by
    intro x1 hx1
    obtain ⟨y0, y1, h2, h3, h4, h5, h6⟩ := hmid x1 (pre_sound hcall hpc hm.pre hx1)
    refine ⟨y1, ?_, ⟨h.right, h.sides.units_right, hn, hR, h5⟩⟩
    unfold EinMix.forward
    simp only [hx1, h2, h3]
  constructor
  · intro hcase
    obtain ⟨x1, hx1⟩ := hp1 (hcase.imp id And.left)
    obtain ⟨y1, h1, h2⟩ := hrest x1 hx1
    rw [h1]
    exact (post_result hcall h2 hm.post).1 (hcase.imp id And.right)
  · intro hcase
    by_cases hpre : n < 8 ∨ m.pre = none
    · obtain ⟨x1, hx1⟩ := hp1 hpre
      obtain ⟨y1, h1, h2⟩ := hrest x1 hx1
      rw [h1]
      refine (post_result hcall h2 hm.post).2 (fun hpost => hcase ?_)
      rcases hpre with h | h
      · exact .inl h
      · rcases hpost with h' | h'
        · exact .inl h'
        · exact .inr ⟨h, h'⟩
    · unfold EinMix.forward
      rw [hp2 hpre]

end contraction

end

end Einops
