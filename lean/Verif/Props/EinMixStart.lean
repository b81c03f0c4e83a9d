import Verif.Props.EinMix

/-!
# Starting values of `EinMix`
-/

namespace Einops

universe u

section
variable {α : Type u} [PyUnicode] {so : Nat → SetOrder} {pattern weight : Str} {bias : Option Str} {kw : List (Str × Size)}
  {GL GR GW : List Elem} {m : EinMix α} {L R : List (List Axis)} {len : AxisMap} {x : Tensor α}

/-! ### C60 -/

omit [PyUnicode] in
theorem prod_cast (l : List Nat) : ((l.prod : Nat) : Int) = (l.map Int.ofNat).prod := by
  induction l with
  | nil => rfl
  | cons n l ih => simp [ih]

/-- `fan_in` is the product of the lengths of the weight axes that are not in the output -/
theorem fanIn_eq (he : ellipsisStr ∉ kw.map Prod.fst) (hb : ∀ s, bias = some s → '…' ∉ s) (hk : IntKw kw)
    (hpat : IsPattern pattern GL GR) (hwt : IsSide false false weight GW)
    (hm : makeEinMix so pattern weight bias kw = .ok m) (hG : Groups GL GR x.ndim L R) (hF : Fits L R kw x.shape len) :
    (m.fanIn = groupSize len (((sideWords GW).map Axis.str).filter fun a => a ∉ R.flatten)) ∧ 0 < m.fanIn ∧
      ((sideWords GW).map Axis.str).Nodup := by
  obtain ⟨hpe, l, r, -, hl, hr⟩ := isPattern_split hpat
  obtain ⟨GL', GR', GW', h1, h2, h3, h4, h5, h6, h7, -, h8⟩ := made_of_ok he (isSide_no_special hwt (by simp)) hb hk.nodup hpe hm
  obtain ⟨rfl, rfl⟩ := isPattern_unique hpat h1
  obtain rfl := IsSide.unique hwt h2
  have hsz : ∀ v ∈ sideWords GW, (v, sizeFor kw v) ∈ kw := fun v hv =>
    mem_sizeFor (h3.weight_sized v (mem_axisWords.2 ⟨hv, h4 v hv⟩))
  have hlen : ∀ v ∈ sideWords GW, (len (.str v) : Int) = (sizeFor kw v).val := fun v hv => hF.kw_eq v _ (hsz v hv)
  have hd : ∀ v ∈ sideWords GW, v ≠ dots := fun v hv h => h3.weight_fixed (h ▸ hv)
  have hR : ∀ v ∈ sideWords GW, (Axis.str v ∈ R.flatten ↔ v ∈ sideWords GR) := by
    intro v hv
    obtain ⟨n, -, -, rfl, -⟩ := hG
    rw [name_mem_flatten (side_no_ell hr) (side_no_ell hwt v hv)]
    exact ⟨fun h => h.1, fun h => ⟨h, hd v hv, h4 v hv⟩⟩
  have hfil : ((sideWords GW).map Axis.str).filter (fun a => a ∉ R.flatten) =
      ((sideWords GW).filter (fun v => decide (v ∉ sideWords GR))).map Axis.str := by
    rw [List.filter_map]
    congr 1
    apply List.filter_congr
    intro v hv
    simp only [Function.comp]
    rw [decide_eq_decide, hR v hv]
  have hprod : m.fanIn = groupSize len (((sideWords GW).map Axis.str).filter fun a => a ∉ R.flatten) := by
    rw [hfil, h8.fan, groupSize, List.map_map, prod_cast, List.map_map]
    congr 1
    refine List.map_congr_left fun v hv => ?_
    exact (hlen v (List.mem_filter.1 hv).1).symm
  refine ⟨hprod, ?_, ?_⟩
  · rw [hprod, hfil]
    refine Int.natCast_pos.2 (Nat.pos_of_ne_zero ?_)
    rw [groupSize, Ne, List.prod_eq_zero_iff, List.map_map]
    intro h0
    obtain ⟨v, hv, h0⟩ := List.mem_map.1 h0
    obtain ⟨hv1, hv2⟩ := List.mem_filter.1 hv
    have hne := h6 v _ hv1 (by simpa using hv2) (hsz v hv1)
    rw [← hlen v hv1] at hne
    exact hne (by exact_mod_cast h0)
  · have := side_flatten_nodup hwt 2 0
    rw [flatten_spread] at this
    have e : wordsAxes 2 0 (sideWords GW) = (sideWords GW).map Axis.str := by
      have : ∀ (k : Nat) (ws : List Str), (∀ v ∈ ws, v ≠ dots ∧ ¬ IsNumber v) → wordsAxes 2 k ws = ws.map Axis.str := by
        intro k ws
        induction ws generalizing k with
        | nil => intro _; rfl
        | cons v ws ih =>
          intro h
          rw [wordsAxes, ih _ (fun w hw => h w (List.mem_cons_of_mem _ hw)), wordAxes, if_neg (h v (by simp)).1,
            if_neg (h v (by simp)).2]
          rfl
      exact this 0 _ (fun v hv => ⟨hd v hv, h4 v hv⟩)
    rw [e] at this
    have e2 : ((sideWords GW).map Axis.str).flatMap (subEll (ellAxes 0)) = (sideWords GW).map Axis.str := by
      rw [List.flatMap_congr (g := fun a => [a])]
      · simp
      · intro a ha
        obtain ⟨v, hv, rfl⟩ := List.mem_map.1 ha
        unfold subEll
        rw [if_neg]
        intro hc
        cases hc
        exact side_no_ell hwt _ hv (by simp [ellipsisStr])
    rwa [e2] at this

/-- **C60** The sum for one output element (C29) has `fan_in` terms for every choice of coordinates of those summed input
axes that are not in the weight. -/
theorem C60_terms (he : ellipsisStr ∉ kw.map Prod.fst) (hb : ∀ s, bias = some s → '…' ∉ s) (hk : IntKw kw)
    (hpat : IsPattern pattern GL GR) (hwt : IsSide false false weight GW)
    (hm : makeEinMix so pattern weight bias kw = .ok m) (hG : Groups GL GR x.ndim L R) (hF : Fits L R kw x.shape len)
    {S : List Axis} (hS : S.Nodup)
    (hmem : ∀ a, a ∈ S ↔ (a ∈ L.flatten ∨ a ∈ (sideWords GW).map Axis.str) ∧ a ∉ R.flatten) (env : AxisMap) :
    (((loops len S env).length : Int) =
      m.fanIn * groupSize len (S.filter fun a => a ∉ (sideWords GW).map Axis.str)) ∧ 0 < m.fanIn := by
  obtain ⟨h1, h2, h3⟩ := fanIn_eq he hb hk hpat hwt hm hG hF
  refine ⟨?_, h2⟩
  rw [loops_length, h1, ← Nat.cast_mul, Nat.cast_inj]
  generalize hW : (sideWords GW).map Axis.str = W at hmem h3
  have hp : (W.filter fun a => a ∉ R.flatten).Perm (S.filter fun a => ¬ a ∉ W) := by
    rw [List.perm_ext_iff_of_nodup (h3.filter _) (hS.filter _)]
    intro a
    simp only [List.mem_filter, decide_eq_true_eq, not_not]
    rw [hmem a]
    tauto
  have hq : ((S.filter fun a => ¬ a ∉ W) ++ (S.filter fun a => a ∉ W)).Perm S := by
    have := List.filter_append_perm (fun a => decide (¬ a ∉ W)) S
    simpa only [decide_not, Bool.not_not] using this
  unfold groupSize
  rw [← ((hp.append_right _).trans hq |>.map len).prod_eq, List.map_append, List.prod_append]

/-- If every input axis is in the weight or in the output, an output element is a combination of `fan_in` input elements,
as the comment in the source says. -/
theorem C60_terms_exact (he : ellipsisStr ∉ kw.map Prod.fst) (hb : ∀ s, bias = some s → '…' ∉ s) (hk : IntKw kw)
    (hpat : IsPattern pattern GL GR) (hwt : IsSide false false weight GW)
    (hm : makeEinMix so pattern weight bias kw = .ok m) (hG : Groups GL GR x.ndim L R) (hF : Fits L R kw x.shape len)
    (hall : ∀ a ∈ L.flatten, a ∈ (sideWords GW).map Axis.str ∨ a ∈ R.flatten) {S : List Axis} (hS : S.Nodup)
    (hmem : ∀ a, a ∈ S ↔ (a ∈ L.flatten ∨ a ∈ (sideWords GW).map Axis.str) ∧ a ∉ R.flatten) (env : AxisMap) :
    ((loops len S env).length : Int) = m.fanIn := by
  rw [(C60_terms he hb hk hpat hwt hm hG hF hS hmem env).1, List.filter_eq_nil_iff.2]
  · simp [groupSize]
  · intro a ha
    obtain ⟨h1, h2⟩ := (hmem a).1 ha
    simpa using h1.elim (fun h => (hall a h).resolve_right h2) id

end

section
attribute [local instance] asciiUnicode

/-- `fan_in` of a layer made by the constructor -/
def fanOf (r : Py (EinMix Int)) : Option Int := r.toOption.map EinMix.fanIn

-- a linear layer, a grouped one
example : fanOf (makeEinMix (fun _ => idOrder) "t b cin -> t b cout".toList "cin cout".toList none
    [kwInt "cin" 10, kwInt "cout" 20]) = some 10 := by rfl
example : fanOf (makeEinMix (fun _ => idOrder) "b (g c) -> b (g d)".toList "g c d".toList none
    [kwInt "g" 4, kwInt "c" 10, kwInt "d" 20]) = some 10 := by rfl

/-- The comment "single output element is a combination of fan_in input elements" does not hold if an axis of the input
is neither in the weight nor in the output: here `fan_in` is 1 and the output element is the sum of three input elements. -/
theorem C60_comment_false :
    fanOf (makeEinMix (fun _ => idOrder) "a b -> a c".toList "c".toList none [kwInt "c" 1]) = some 1 ∧
    callMix (makeEinMix (fun _ => idOrder) "a b -> a c".toList "c".toList none [kwInt "c" 1]) ⟨[1], [1], rfl⟩ none t23 =
      .ok ⟨[2, 1], [3, 12], rfl⟩ := by
  constructor <;> rfl

end

end Einops
