import Verif.Proofs.EinsumLaws
import Verif.Props.Einsum
import Verif.Props.Layers

/-!
# Laws relating `einsum` calls to each other and to the other operations
-/

namespace Einops

universe u

section
variable {α : Type u} [CommSemiring α] [PyUnicode] {f : Str → List (Tensor α) → Py (Tensor α)} {terms terms' : List (List ESym)}
  {out out' : List ESym} {len : AxisMap} {n : Nat} {xs xs' : List (Tensor α)} {p p' : Str}

/-! ### C49 -/

omit [CommSemiring α] in
/-- Consistent renaming of the axes: the framework gets the same call, or both calls raise the same exception. -/
theorem C49_renaming {ρ : Str → Str} (h : IsEinsum p terms out)
    (h' : IsEinsum p' (terms.map (List.map (renameSym ρ))) (out.map (renameSym ρ)))
    (hρ : ∀ t ∈ out :: terms, ∀ t' ∈ out :: terms, ∀ v ∈ symNames t, ∀ w ∈ symNames t', ρ v = ρ w → v = w)
    (hx : xs ≠ []) :
    einsum f (xs.map .tensor ++ [.str p']) = einsum f (xs.map .tensor ++ [.str p]) := by
  rw [einsum_eq f hx, einsum_eq f hx, compactify_rename h h' hρ]

/-- The order of the tensors does not matter if the descriptions are in the same order. -/
theorem C49_operand_order (hf : EinsumLawful f) (h : IsEinsum p terms out) (h' : IsEinsum p' terms' out)
    (h52 : distinct (terms.flatMap symNames) ≤ 52) (hx : EinsumFits len n terms out xs)
    (hl : terms'.length = xs'.length) (hperm : (terms.zip xs).Perm (terms'.zip xs')) :
    ∃ y, einsum f (xs.map .tensor ++ [.str p]) = .ok y ∧ einsum f (xs'.map .tensor ++ [.str p']) = .ok y := by
  have hlen := hx.shapes.length_eq
  have hzip : ∀ {ts : List (List ESym)} {zs : List (Tensor α)}, (ts.map (symAxes n)).zip zs =
      (ts.zip zs).map (fun q => (symAxes n q.1, q.2)) := by
    intro ts zs
    rw [List.zip_map_left]; rfl
  have hmem : ∀ t, t ∈ terms ↔ t ∈ terms' := fun t => by
    rw [mem_zip_left hlen, mem_zip_left hl]
    exact exists_congr (fun x => hperm.mem_iff)
  have hts : terms.Perm terms' := by
    have := hperm.map Prod.fst
    rwa [List.map_fst_zip hlen.le, List.map_fst_zip hl.le] at this
  have hx' : EinsumFits len n terms' out xs' := by
    refine ⟨?_, ?_, hx.nodup, ?_, ?_⟩
    · rintro rfl
      have h0 := hperm.length_eq
      rw [List.length_zip, List.length_zip, hlen, hl] at h0
      simp at h0
      exact hx.some_input h0
    · rw [List.forall₂_iff_zip]
      refine ⟨hl, fun {a b} hab => ?_⟩
      exact (List.forall₂_iff_zip.1 hx.shapes).2 (hperm.mem_iff.2 hab)
    · intro w hw
      obtain ⟨t, ht, hwt⟩ := hx.within w hw
      exact ⟨t, (hmem t).1 ht, hwt⟩
    · rw [hx.ellipsis]; simp only [hmem]
  have h52' : distinct (terms'.flatMap symNames) ≤ 52 := by
    unfold distinct at h52 ⊢
    rwa [← ((hts.flatMap_right symNames).dedup).length_eq]
  obtain ⟨y, e1, c1⟩ := einsum_contracts hf h h52 hx
  obtain ⟨y', e2, c2⟩ := einsum_contracts hf h' h52' hx'
  have c3 := c1.perm (As' := terms'.map (symAxes n)) (xs' := xs') (by simpa using hlen) (by simpa using hl)
    (by rw [hzip, hzip]; exact hperm.map _)
  rw [c3.unique hx.nodup c2] at e1
  exact ⟨y', e1, e2⟩

/-- Writing the output axes in another order is a `rearrange` of the result. -/
theorem C49_output_order {E : ElemOps α} {b : Backend α} (hf : EinsumLawful f) (hb : Modelled E b) (so : SetOrder)
    (h : IsEinsum p terms out) (h' : IsEinsum p' terms out')
    (h52 : distinct (terms.flatMap symNames) ≤ 52) (hx : EinsumFits len n terms out xs)
    (hset : ∀ a, a ∈ out ↔ a ∈ out') {q : Str} {GL GR : List Elem} (hq : IsPattern q GL GR)
    (hl : GL.map readElem = out.map some) (hr : GR.map readElem = out'.map some) (hd : ellipsisStr ∉ symNames out) :
    ∃ y z, einsum f (xs.map .tensor ++ [.str p]) = .ok y ∧ einsum f (xs.map .tensor ++ [.str p']) = .ok z ∧
      rearrange b so (.one y) q [] = .ok z := by
  obtain ⟨y, e1, c1⟩ := einsum_contracts hf h h52 hx
  obtain ⟨m, hm1, hm2, ha⟩ := accepted_of_read hq hl hr hd hset (x := y) (n := n) c1.1
  obtain ⟨z, e2, hz⟩ := ha.moves (red := .name "rearrange".toList) hb.lawful intKw_nil (ha.move_sub (.inl rfl))
  have hn := ha.nodup.2
  rw [singles_flatten, hm2] at hn
  have hx' : EinsumFits len n terms out' xs := by
    refine ⟨hx.some_input, hx.shapes, hn, ?_, ?_⟩
    · intro w hw
      exact hx.within w (name_mem_symNames.2 ((hset _).2 (name_mem_symNames.1 hw)))
    · rw [← hset]; exact hx.ellipsis
  obtain ⟨z', e3, c3⟩ := einsum_contracts hf h' h52 hx'
  rw [hm1, hm2] at hz
  have c4 := c1.reorder (fun a => by
    rw [mem_symAxes, mem_symAxes, hset]
    simp only [name_mem_symNames, hset]) hz
  rw [c4.unique hn c3] at e2
  exact ⟨y, z', e1, e3, e2 so⟩

omit [CommSemiring α] [PyUnicode] in
theorem forall₂_append {R : List ESym → Tensor α → Prop} {a b : List (List ESym)} {c d : List (Tensor α)} (h1 : List.Forall₂ R a c)
    (h2 : List.Forall₂ R b d) : List.Forall₂ R (a ++ b) (c ++ d) := by
  induction h1 with
  | nil => exact h2
  | cons x _ ih => exact .cons x ih

/-- Contraction in stages: contracting some tensors first and then the result with the others is contracting all at
once, if the axes summed in the first stage occur nowhere else. -/
theorem C49_stages (hf : EinsumLawful f) {p₁ p₂ p₃ : Str} {mid : List ESym} (h1 : IsEinsum p₁ terms mid)
    (h2 : IsEinsum p₂ (mid :: terms') out) (h3 : IsEinsum p₃ (terms ++ terms') out)
    (h52 : distinct ((terms ++ terms').flatMap symNames) ≤ 52) (hx : EinsumFits len n terms mid xs)
    (hx3 : EinsumFits len n (terms ++ terms') out (xs ++ xs'))
    (hsep : ∀ t ∈ terms, ∀ w ∈ symNames t, w ∉ symNames mid → ∀ t' ∈ out :: terms', w ∉ symNames t') :
    ∃ y z, einsum f (xs.map .tensor ++ [.str p₁]) = .ok y ∧ einsum f ((y :: xs').map .tensor ++ [.str p₂]) = .ok z ∧
      einsum f ((xs ++ xs').map .tensor ++ [.str p₃]) = .ok z := by
  have hsub : ∀ {a b : List Str}, (∀ w ∈ a, w ∈ b) → distinct a ≤ distinct b := by
    intro a b hab
    unfold distinct
    exact (List.subperm_of_subset (List.nodup_dedup _) (fun w hw => by
      rw [List.mem_dedup] at hw ⊢; exact hab w hw)).length_le
  have h52a : distinct (terms.flatMap symNames) ≤ 52 := (hsub (fun w hw => by
    rw [List.flatMap_append]; exact List.mem_append_left _ hw)).trans h52
  have h52b : distinct ((mid :: terms').flatMap symNames) ≤ 52 := (hsub (fun w hw => by
    rw [List.flatMap_cons, List.mem_append] at hw
    rw [List.flatMap_append, List.mem_append]
    rcases hw with hw | hw
    · obtain ⟨t, ht, hwt⟩ := hx.within w hw
      exact .inl (List.mem_flatMap.2 ⟨t, ht, hwt⟩)
    · exact .inr hw)).trans h52
  have hlen := hx.shapes.length_eq
  obtain ⟨y, e1, c1⟩ := einsum_contracts hf h1 h52a hx
  have hsh : List.Forall₂ (fun t (x : Tensor α) => x.shape = (symAxes n t).map len) terms' xs' := by
    have h4 := hx3.shapes
    have h5 := hx.shapes
    clear hx hx3 h3 hsep e1 c1 h1 h52 h52a h52b hlen
    induction h5 with
    | nil => exact h4
    | cons _ _ ih =>
      cases h4 with
      | cons _ h6 => exact ih h6
  have hx2 : EinsumFits len n (mid :: terms') out (y :: xs') := by
    refine ⟨by simp, .cons c1.1 hsh, hx3.nodup, ?_, ?_⟩
    · intro w hw
      obtain ⟨t, ht, hwt⟩ := hx3.within w hw
      rcases List.mem_append.1 ht with ht | ht
      · by_cases hm : w ∈ symNames mid
        · exact ⟨mid, by simp, hm⟩
        · exact absurd hw (hsep t ht w hwt hm out (by simp))
      · exact ⟨t, by simp [ht], hwt⟩
    · rw [hx3.ellipsis]
      constructor
      · rintro ⟨t, ht, he⟩
        rcases List.mem_append.1 ht with ht | ht
        · exact ⟨mid, by simp, hx.ellipsis.2 ⟨t, ht, he⟩⟩
        · exact ⟨t, by simp [ht], he⟩
      · rintro ⟨t, ht, he⟩
        rcases List.mem_cons.1 ht with rfl | ht
        · obtain ⟨t', ht', he'⟩ := hx.ellipsis.1 he
          exact ⟨t', by simp [ht'], he'⟩
        · exact ⟨t, by simp [ht], he⟩
  obtain ⟨z, e2, c2⟩ := einsum_contracts hf h2 h52b hx2
  obtain ⟨z', e3, c3⟩ := einsum_contracts hf h3 h52 hx3
  have hnames : ∀ t ∈ terms, ∀ w ∈ symNames t, Axis.str w ∉ ellAxes n := by
    intro t ht w hw hmem
    obtain ⟨i, -, e⟩ := List.mem_map.1 hmem
    simp only [Axis.str.injEq] at e
    have hne : natStr i ≠ [] := Nat.toDigits_ne_nil
    obtain ⟨c, l, hcl⟩ := List.exists_cons_of_ne_nil hne
    exact h1.names t (by simp [ht]) w hw c l (by rw [← e, hcl]; rfl)
  have c4 : Contracts len ((terms ++ terms').map (symAxes n)) (symAxes n out) (xs ++ xs') z := by
    rw [List.map_append]
    refine Contracts.stages (y := y) (by simpa using hlen) ?_ ?_ c1 c2
    · intro a ha
      rw [List.mem_flatten]
      rcases mem_symAxes.1 ha with ⟨he, ha⟩ | ⟨w, hw, rfl⟩
      · obtain ⟨t, ht, he⟩ := hx.ellipsis.1 he
        exact ⟨_, List.mem_map_of_mem ht, mem_symAxes.2 (.inl ⟨he, ha⟩)⟩
      · obtain ⟨t, ht, hwt⟩ := hx.within w hw
        exact ⟨_, List.mem_map_of_mem ht, mem_symAxes.2 (.inr ⟨w, hwt, rfl⟩)⟩
    · intro a ha hna
      obtain ⟨A, hA, ha⟩ := List.mem_flatten.1 ha
      obtain ⟨t, ht, rfl⟩ := List.mem_map.1 hA
      rw [mem_symAxes] at hna
      rcases mem_symAxes.1 ha with ⟨he, hae⟩ | ⟨w, hw, rfl⟩
      · exact absurd (.inl ⟨hx.ellipsis.2 ⟨t, ht, he⟩, hae⟩) hna
      · have hnm : w ∉ symNames mid := fun hm => hna (.inr ⟨w, hm, rfl⟩)
        have hno : ∀ t' ∈ out :: terms', Axis.str w ∉ symAxes n t' := by
          intro t' ht' hmem
          rcases mem_symAxes.1 hmem with ⟨-, h⟩ | ⟨v, hv, e⟩
          · exact hnames t ht w hw h
          · cases e
            exact hsep t ht w hw hnm t' ht' hv
        refine ⟨fun hmem => ?_, hno out (by simp)⟩
        obtain ⟨A, hA, ha⟩ := List.mem_flatten.1 hmem
        obtain ⟨t', ht', rfl⟩ := List.mem_map.1 hA
        exact hno t' (by simp [ht']) ha
  rw [← c4.unique hx3.nodup c3] at e3
  exact ⟨y, z, e1, e2, e3⟩

/-- `einsum` is linear in every tensor: additive and homogeneous. -/
theorem C49_linear (hf : EinsumLawful f) {t : List ESym} {x x' : Tensor α} (h : IsEinsum p (terms ++ t :: terms') out)
    (h52 : distinct ((terms ++ t :: terms').flatMap symNames) ≤ 52)
    (hx : EinsumFits len n (terms ++ t :: terms') out (xs ++ x :: xs')) (hl : terms.length = xs.length)
    (hs : x'.shape = x.shape) (c : α) :
    ∃ (y y' : Tensor α) (hy : y'.shape = y.shape),
      einsum f ((xs ++ x :: xs').map .tensor ++ [.str p]) = .ok y ∧
      einsum f ((xs ++ x' :: xs').map .tensor ++ [.str p]) = .ok y' ∧
      einsum f ((xs ++ x.zipWith (· + ·) x' hs :: xs').map .tensor ++ [.str p]) = .ok (y.zipWith (· + ·) y' hy) ∧
      einsum f ((xs ++ x.map (c * ·) :: xs').map .tensor ++ [.str p]) = .ok (y.map (c * ·)) := by
  have hfit : ∀ z : Tensor α, z.shape = x.shape → EinsumFits len n (terms ++ t :: terms') out (xs ++ z :: xs') := by
    intro z hz
    refine ⟨by simp, ?_, hx.nodup, hx.within, hx.ellipsis⟩
    have h4 := hx.shapes
    clear hx h h52 hs
    induction terms generalizing xs with
    | nil =>
      cases xs with
      | nil =>
        cases h4 with
        | cons a b => exact .cons (hz.trans a) b
      | cons _ _ => simp at hl
    | cons t₁ ts ih =>
      cases xs with
      | nil => simp at hl
      | cons x₁ xs =>
        cases h4 with
        | cons a b => exact .cons a (ih (by simpa using hl) b)
  have hlm : (terms.map (symAxes n)).length = xs.length := by simpa using hl
  obtain ⟨y, e1, c1⟩ := einsum_contracts hf h h52 hx
  obtain ⟨y', e2, c2⟩ := einsum_contracts hf h h52 (hfit x' hs)
  obtain ⟨y3, e3, c3⟩ := einsum_contracts hf h h52 (hfit (x.zipWith (· + ·) x' hs) rfl)
  obtain ⟨y4, e4, c4⟩ := einsum_contracts hf h h52 (hfit (x.map (c * ·)) rfl)
  have hy : y'.shape = y.shape := c2.1.trans c1.1.symm
  refine ⟨y, y', hy, e1, e2, ?_, ?_⟩
  · rw [e3]
    rw [List.map_append, List.map_cons] at c1 c2 c3
    rw [c3.unique hx.nodup (c1.add hlm hs hy c2)]
  · rw [e4]
    rw [List.map_append, List.map_cons] at c1 c4
    rw [c4.unique hx.nodup (c1.smul c hlm)]

/-- A sum-reduction without compositions is the `einsum` with the same pattern. -/
theorem C49_reduce {E : ElemOps α} {b : Backend α} {so : SetOrder} {kw : List (Str × Size)} {t : List ESym} {x y : Tensor α}
    (hf : EinsumLawful f) (hb : Computes E "sum".toList b) (hsum : ∀ vs, E.op "sum".toList vs = .ok vs.sum)
    (h : IsEinsum p [t] out) (h52 : distinct (symNames t) ≤ 52) (hd : ellipsisStr ∉ symNames out)
    (hell : ESym.ell ∈ t → ESym.ell ∈ out) (hkw : IntKw kw) (hp : '…' ∉ p)
    (hr : reduce b so (.one x) p (.name "sum".toList) kw = .ok y) : einsum f [.tensor x, .str p] = .ok y := by
  obtain ⟨GL, GR, L, R, len, ha, hres⟩ := (reduce_iff hb.modelled.lawful so hp hkw (red_names_isRed (by decide)) (hb.reduce (by decide)) y).1 hr
  have hs := ha.prepared.sides
  rw [SidesOK, if_neg (by decide), if_neg (by decide)] at hs
  have hnd := ha.nodup
  obtain ⟨n, rfl, rfl, hx⟩ := einsum_reads h ha hd hell hs.2.ellipsis
    (reduce_axes_sub ha.pattern (red_names_isRed (by decide)) ha.prepared)
  simp only [singles_flatten] at hnd
  obtain ⟨y', e1, c1⟩ := einsum_contracts hf h (by simpa using h52) hx
  have c2 : Contracts len [symAxes n t] (symAxes n out) [x] y := by
    rcases hres with ⟨h1, h2⟩ | ⟨-, -, h2⟩
    · refine h2.contracts (fun a ha => ?_)
      by_contra hc
      exact h1 ⟨a, by rwa [singles_flatten], by rwa [singles_flatten]⟩
    · exact h2.contracts hsum hnd.1
  rw [← c1.unique hnd.2 c2]
  exact e1

/-- A `rearrange` without compositions is the `einsum` with the same pattern. -/
theorem C49_rearrange {E : ElemOps α} {b : Backend α} {so : SetOrder} {kw : List (Str × Size)} {t : List ESym} {x y : Tensor α}
    (hf : EinsumLawful f) (hb : Modelled E b) (h : IsEinsum p [t] out) (h52 : distinct (symNames t) ≤ 52)
    (hd : ellipsisStr ∉ symNames out) (hkw : IntKw kw) (hp : '…' ∉ p)
    (hr : rearrange b so (.one x) p kw = .ok y) : einsum f [.tensor x, .str p] = .ok y := by
  obtain ⟨GL, GR, L, R, len, ha, hm⟩ := (move_iff hb.lawful so hp hkw (.inl rfl) (fun h => by cases h) y).1 hr
  have hs := ha.prepared.sides
  rw [SidesOK, if_pos rfl] at hs
  have hax := rearrange_axes ha.pattern ha.prepared
  have hell : ESym.ell ∈ t → ESym.ell ∈ out := by
    obtain ⟨h1, h2⟩ := einsum_split h ha.pattern
    obtain ⟨-, l, r, -, hL, hR⟩ := isPattern_split ha.pattern
    have hdt : ellipsisStr ∉ symNames t := read_no_marker h1 hs.ellipsis.2 (fun w hw => ne_ell hL hw)
    rw [← read_dots h1 hdt, ← read_dots h2 hd]
    exact fun h => hs.left_in_right _ h dots_not_number
  obtain ⟨n, rfl, rfl, hx⟩ := einsum_reads h ha hd hell hs.ellipsis hax.2
  obtain ⟨y', e1, c1⟩ := einsum_contracts hf h (by simpa using h52) hx
  rw [singles_flatten, singles_flatten] at hax
  rw [← c1.unique hx.nodup (hm.contracts hax.1)]
  exact e1

end

/-! ### examples -/

section
attribute [local instance] asciiUnicode

/-- lengths 2 -/
def two : AxisMap := fun _ => 2

def mA : Tensor Int := mat 2 2 [1, 2, 3, 4] rfl
def mB : Tensor Int := mat 2 2 [5, 6, 7, 8] rfl
def mC : Tensor Int := mat 2 2 [0, 1, 1, 1] rfl

def sy (s : String) : ESym := .name s.toList

theorem read_ab : IsEinsum "i j, j k -> i k".toList [[sy "i", sy "j"], [sy "j", sy "k"]] [sy "i", sy "k"] :=
  ⟨[[.bare "i".toList, .bare "j".toList], [.bare "j".toList, .bare "k".toList]], [.bare "i".toList, .bare "k".toList],
    ⟨["i j".toList, " j k ".toList], " i k".toList, by decide, rfl, .cons (by decide) (.cons (by decide) .nil), by decide⟩,
    .cons (by decide) (.cons (by decide) .nil), by decide⟩

theorem read_ba : IsEinsum "j k, i j -> i k".toList [[sy "j", sy "k"], [sy "i", sy "j"]] [sy "i", sy "k"] :=
  ⟨[[.bare "j".toList, .bare "k".toList], [.bare "i".toList, .bare "j".toList]], [.bare "i".toList, .bare "k".toList],
    ⟨["j k".toList, " i j ".toList], " i k".toList, by decide, rfl, .cons (by decide) (.cons (by decide) .nil), by decide⟩,
    .cons (by decide) (.cons (by decide) .nil), by decide⟩

theorem read_abt : IsEinsum "i j, j k -> k i".toList [[sy "i", sy "j"], [sy "j", sy "k"]] [sy "k", sy "i"] :=
  ⟨[[.bare "i".toList, .bare "j".toList], [.bare "j".toList, .bare "k".toList]], [.bare "k".toList, .bare "i".toList],
    ⟨["i j".toList, " j k ".toList], " k i".toList, by decide, rfl, .cons (by decide) (.cons (by decide) .nil), by decide⟩,
    .cons (by decide) (.cons (by decide) .nil), by decide⟩

theorem read_kl : IsEinsum "i k, k l -> i l".toList [[sy "i", sy "k"], [sy "k", sy "l"]] [sy "i", sy "l"] :=
  ⟨[[.bare "i".toList, .bare "k".toList], [.bare "k".toList, .bare "l".toList]], [.bare "i".toList, .bare "l".toList],
    ⟨["i k".toList, " k l ".toList], " i l".toList, by decide, rfl, .cons (by decide) (.cons (by decide) .nil), by decide⟩,
    .cons (by decide) (.cons (by decide) .nil), by decide⟩

theorem read_abc : IsEinsum "i j, j k, k l -> i l".toList [[sy "i", sy "j"], [sy "j", sy "k"], [sy "k", sy "l"]] [sy "i", sy "l"] :=
  ⟨[[.bare "i".toList, .bare "j".toList], [.bare "j".toList, .bare "k".toList], [.bare "k".toList, .bare "l".toList]],
    [.bare "i".toList, .bare "l".toList],
    ⟨["i j".toList, " j k".toList, " k l ".toList], " i l".toList, by decide, rfl,
      .cons (by decide) (.cons (by decide) (.cons (by decide) .nil)), by decide⟩,
    .cons (by decide) (.cons (by decide) (.cons (by decide) .nil)), by decide⟩

theorem fits_ab : EinsumFits two 0 [[sy "i", sy "j"], [sy "j", sy "k"]] [sy "i", sy "k"] [mA, mB] where
  some_input := by simp
  shapes := .cons (by decide) (.cons (by decide) .nil)
  nodup := by decide
  within := by decide
  ellipsis := by decide

theorem fits_abc : EinsumFits two 0 [[sy "i", sy "j"], [sy "j", sy "k"], [sy "k", sy "l"]] [sy "i", sy "l"] [mA, mB, mC] where
  some_input := by simp
  shapes := .cons (by decide) (.cons (by decide) (.cons (by decide) .nil))
  nodup := by decide
  within := by decide
  ellipsis := by decide

/-- the order of the factors -/
example : ∃ y, einsum refEinsum [.tensor mA, .tensor mB, .str "i j, j k -> i k".toList] = .ok y ∧
    einsum refEinsum [.tensor mB, .tensor mA, .str "j k, i j -> i k".toList] = .ok y :=
  C49_operand_order (xs := [mA, mB]) (xs' := [mB, mA]) refEinsum_lawful read_ab read_ba (by decide) fits_ab rfl
    (List.Perm.swap _ _ _)
example : einsum refEinsum [.tensor mB, .tensor mA, .str "j k, i j -> i k".toList] = .ok (mat 2 2 [19, 22, 43, 50] rfl) := by rfl

/-- the product and the transposed product -/
example : ∃ y z, einsum refEinsum [.tensor mA, .tensor mB, .str "i j, j k -> i k".toList] = .ok y ∧
    einsum refEinsum [.tensor mA, .tensor mB, .str "i j, j k -> k i".toList] = .ok z ∧
    rearrange (numpyBackend addOps true) idOrder (.one y) "r c -> c r".toList [] = .ok z := by
  exact ⟨mat 2 2 [19, 22, 43, 50] rfl, mat 2 2 [19, 43, 22, 50] rfl, by rfl, by rfl, by rfl⟩
example : ∃ y z, einsum refEinsum [.tensor mA, .tensor mB, .str "i j, j k -> i k".toList] = .ok y ∧
    einsum refEinsum [.tensor mA, .tensor mB, .str "i j, j k -> k i".toList] = .ok z ∧
    rearrange (numpyBackend addOps true) idOrder (.one y) "i k -> k i".toList [] = .ok z :=
  C49_output_order (xs := [mA, mB]) (GL := [.bare "i".toList, .bare "k".toList]) (GR := [.bare "k".toList, .bare "i".toList])
    refEinsum_lawful (.numpy true) idOrder read_ab read_abt (by decide) fits_ab
    (by simp [sy, or_comm]) ⟨"i k ".toList, " k i".toList, rfl, by decide, by decide⟩ (by decide) (by decide) (by decide)

/-- a product of three matrices -/
example : ∃ y z, einsum refEinsum [.tensor mA, .tensor mB, .str "i j, j k -> i k".toList] = .ok y ∧
    einsum refEinsum [.tensor y, .tensor mC, .str "i k, k l -> i l".toList] = .ok z ∧
    einsum refEinsum [.tensor mA, .tensor mB, .tensor mC, .str "i j, j k, k l -> i l".toList] = .ok z :=
  C49_stages (xs := [mA, mB]) (xs' := [mC]) (terms := [[sy "i", sy "j"], [sy "j", sy "k"]]) (terms' := [[sy "k", sy "l"]])
    (out := [sy "i", sy "l"]) refEinsum_lawful read_ab read_kl read_abc (by decide) fits_ab fits_abc (by decide)

/-- If an axis summed in the first stage occurs in the second, the results differ. -/
theorem C49_stages_needs_separation :
    einsum refEinsum [.tensor mA, .tensor mB, .str "i j, j k -> i k".toList] = .ok (mat 2 2 [19, 22, 43, 50] rfl) ∧
    einsum refEinsum [.tensor (mat 2 2 [19, 22, 43, 50] rfl), .tensor mC, .str "i k, k j -> i".toList] ≠
      einsum refEinsum [.tensor mA, .tensor mB, .tensor mC, .str "i j, j k, k j -> i".toList] := by
  refine ⟨by rfl, ?_⟩
  rw [show einsum refEinsum [.tensor (mat 2 2 [19, 22, 43, 50] rfl), .tensor mC, .str "i k, k j -> i".toList] =
    .ok (⟨[2], [63, 143], rfl⟩ : Tensor Int) by rfl,
    show einsum refEinsum [.tensor mA, .tensor mB, .tensor mC, .str "i j, j k, k j -> i".toList] =
    .ok (⟨[2], [36, 78], rfl⟩ : Tensor Int) by rfl]
  intro h
  have := congrArg (fun r => r.toOption.map Tensor.data) h
  exact absurd this (by decide)

/-- linear in the second factor -/
example : ∃ (y y' : Tensor Int) (hy : y'.shape = y.shape),
    einsum refEinsum [.tensor mA, .tensor mB, .str "i j, j k -> i k".toList] = .ok y ∧
    einsum refEinsum [.tensor mA, .tensor mC, .str "i j, j k -> i k".toList] = .ok y' ∧
    einsum refEinsum [.tensor mA, .tensor (mB.zipWith (· + ·) mC rfl), .str "i j, j k -> i k".toList] =
      .ok (y.zipWith (· + ·) y' hy) ∧
    einsum refEinsum [.tensor mA, .tensor (mB.map (3 * ·)), .str "i j, j k -> i k".toList] = .ok (y.map (3 * ·)) :=
  C49_linear (xs := [mA]) (xs' := []) (terms := [[sy "i", sy "j"]]) (t := [sy "j", sy "k"]) (terms' := []) (x' := mC) refEinsum_lawful
    read_ab (by decide) fits_ab rfl rfl 3

theorem read_sum : IsEinsum "... b c -> c ...".toList [[.ell, sy "b", sy "c"]] [sy "c", .ell] :=
  ⟨[[.bare dots, .bare "b".toList, .bare "c".toList]], [.bare "c".toList, .bare dots],
    ⟨["... b c ".toList], " c ...".toList, by decide, rfl, .cons (by decide) .nil, by decide⟩, .cons (by decide) .nil, by decide⟩

/-- a reduction -/
example : einsum refEinsum [.tensor ⟨[2, 2, 2], [1, 2, 3, 4, 5, 6, 7, 8], rfl⟩, .str "... b c -> c ...".toList] =
    .ok (⟨[2, 2], [4, 12, 6, 14], rfl⟩ : Tensor Int) :=
  C49_reduce (so := idOrder) (kw := [kwInt "b" 2]) refEinsum_lawful (.numpy true) (E := addOps) (fun _ => rfl) read_sum (by decide)
    (by decide) (by decide) ⟨by decide, by decide⟩ (by decide) (by rfl)

theorem read_named : IsEinsum "row in, in col -> row col".toList
    [[sy "row", sy "in"], [sy "in", sy "col"]] [sy "row", sy "col"] :=
  ⟨[[.bare "row".toList, .bare "in".toList], [.bare "in".toList, .bare "col".toList]], [.bare "row".toList, .bare "col".toList],
    ⟨["row in".toList, " in col ".toList], " row col".toList, by decide, rfl, .cons (by decide) (.cons (by decide) .nil), by decide⟩,
    .cons (by decide) (.cons (by decide) .nil), by decide⟩

/-- renaming: the framework gets the same call -/
example (f : Str → List (Tensor Int) → Py (Tensor Int)) :
    einsum f [.tensor mA, .tensor mB, .str "i j, j k -> i k".toList] =
    einsum f [.tensor mA, .tensor mB, .str "row in, in col -> row col".toList] :=
  C49_renaming (xs := [mA, mB]) (ρ := fun w => if w = "row".toList then "i".toList else if w = "in".toList then "j".toList else "k".toList)
    read_named read_ab (by decide) (by simp)

end

end Einops
