import Verif.Proofs.TestClaims
import Mathlib.Data.List.GetD
import Mathlib.Tactic.IntervalCases

/-!
# C86: what the tests of the operations sample, for all inputs

einops/tests/test_ops.py tries random permutations, random shapes and one tensor of shape `[2, 3, 4, 5, 6]`; the theorems
are about every permutation, shape and tensor.
-/

namespace Einops

universe u

/-! ### The patterns of the tests -/

section
attribute [local instance] asciiUnicode

theorem test_pattern_1 : @IsPattern asciiUnicode "...->...".toList [.bare dots] [.bare dots] :=
  ⟨"...".toList, "...".toList, by decide, isSide_of (by decide) (by decide) (by decide) (by decide),
    isSide_of (by decide) (by decide) (by decide) (by decide)⟩

theorem test_pattern_2 : @IsPattern asciiUnicode "a b c d e-> a b c d e".toList [.bare ['a'], .bare ['b'], .bare ['c'], .bare ['d'], .bare ['e']] [.bare ['a'], .bare ['b'], .bare ['c'], .bare ['d'], .bare ['e']] :=
  ⟨"a b c d e".toList, " a b c d e".toList, by decide, isSide_of (by decide) (by decide) (by decide) (by decide),
    isSide_of (by decide) (by decide) (by decide) (by decide)⟩

theorem test_pattern_3 : @IsPattern asciiUnicode "a b c d e ...-> ... a b c d e".toList [.bare ['a'], .bare ['b'], .bare ['c'], .bare ['d'], .bare ['e'], .bare dots] [.bare dots, .bare ['a'], .bare ['b'], .bare ['c'], .bare ['d'], .bare ['e']] :=
  ⟨"a b c d e ...".toList, " ... a b c d e".toList, by decide, isSide_of (by decide) (by decide) (by decide) (by decide),
    isSide_of (by decide) (by decide) (by decide) (by decide)⟩

theorem test_pattern_4 : @IsPattern asciiUnicode "a b c d e ...-> a ... b c d e".toList [.bare ['a'], .bare ['b'], .bare ['c'], .bare ['d'], .bare ['e'], .bare dots] [.bare ['a'], .bare dots, .bare ['b'], .bare ['c'], .bare ['d'], .bare ['e']] :=
  ⟨"a b c d e ...".toList, " a ... b c d e".toList, by decide, isSide_of (by decide) (by decide) (by decide) (by decide),
    isSide_of (by decide) (by decide) (by decide) (by decide)⟩

theorem test_pattern_5 : @IsPattern asciiUnicode "... a b c d e -> ... a b c d e".toList [.bare dots, .bare ['a'], .bare ['b'], .bare ['c'], .bare ['d'], .bare ['e']] [.bare dots, .bare ['a'], .bare ['b'], .bare ['c'], .bare ['d'], .bare ['e']] :=
  ⟨"... a b c d e ".toList, " ... a b c d e".toList, by decide, isSide_of (by decide) (by decide) (by decide) (by decide),
    isSide_of (by decide) (by decide) (by decide) (by decide)⟩

theorem test_pattern_6 : @IsPattern asciiUnicode "a ... e-> a ... e".toList [.bare ['a'], .bare dots, .bare ['e']] [.bare ['a'], .bare dots, .bare ['e']] :=
  ⟨"a ... e".toList, " a ... e".toList, by decide, isSide_of (by decide) (by decide) (by decide) (by decide),
    isSide_of (by decide) (by decide) (by decide) (by decide)⟩

theorem test_pattern_7 : @IsPattern asciiUnicode "a ... -> a ... ".toList [.bare ['a'], .bare dots] [.bare ['a'], .bare dots] :=
  ⟨"a ... ".toList, " a ... ".toList, by decide, isSide_of (by decide) (by decide) (by decide) (by decide),
    isSide_of (by decide) (by decide) (by decide) (by decide)⟩

theorem test_pattern_8 : @IsPattern asciiUnicode "a ... c d e -> a (...) c d e".toList [.bare ['a'], .bare dots, .bare ['c'], .bare ['d'], .bare ['e']] [.bare ['a'], .paren [dots], .bare ['c'], .bare ['d'], .bare ['e']] :=
  ⟨"a ... c d e ".toList, " a (...) c d e".toList, by decide, isSide_of (by decide) (by decide) (by decide) (by decide),
    isSide_of (by decide) (by decide) (by decide) (by decide)⟩

theorem test_pattern_9 : @IsPattern asciiUnicode "a b c d e -> (a b) c d e".toList [.bare ['a'], .bare ['b'], .bare ['c'], .bare ['d'], .bare ['e']] [.paren [['a'], ['b']], .bare ['c'], .bare ['d'], .bare ['e']] :=
  ⟨"a b c d e ".toList, " (a b) c d e".toList, by decide, isSide_of (by decide) (by decide) (by decide) (by decide),
    isSide_of (by decide) (by decide) (by decide) (by decide)⟩

theorem test_pattern_10 : @IsPattern asciiUnicode "a b ... -> (a b) ... ".toList [.bare ['a'], .bare ['b'], .bare dots] [.paren [['a'], ['b']], .bare dots] :=
  ⟨"a b ... ".toList, " (a b) ... ".toList, by decide, isSide_of (by decide) (by decide) (by decide) (by decide),
    isSide_of (by decide) (by decide) (by decide) (by decide)⟩

theorem test_pattern_11 : @IsPattern asciiUnicode "a b c d e -> a b (c d) e".toList [.bare ['a'], .bare ['b'], .bare ['c'], .bare ['d'], .bare ['e']] [.bare ['a'], .bare ['b'], .paren [['c'], ['d']], .bare ['e']] :=
  ⟨"a b c d e ".toList, " a b (c d) e".toList, by decide, isSide_of (by decide) (by decide) (by decide) (by decide),
    isSide_of (by decide) (by decide) (by decide) (by decide)⟩

theorem test_pattern_12 : @IsPattern asciiUnicode "... c d e -> ... (c d) e".toList [.bare dots, .bare ['c'], .bare ['d'], .bare ['e']] [.bare dots, .paren [['c'], ['d']], .bare ['e']] :=
  ⟨"... c d e ".toList, " ... (c d) e".toList, by decide, isSide_of (by decide) (by decide) (by decide) (by decide),
    isSide_of (by decide) (by decide) (by decide) (by decide)⟩

theorem test_pattern_13 : @IsPattern asciiUnicode "a b c d e -> a b c d e".toList [.bare ['a'], .bare ['b'], .bare ['c'], .bare ['d'], .bare ['e']] [.bare ['a'], .bare ['b'], .bare ['c'], .bare ['d'], .bare ['e']] :=
  ⟨"a b c d e ".toList, " a b c d e".toList, by decide, isSide_of (by decide) (by decide) (by decide) (by decide),
    isSide_of (by decide) (by decide) (by decide) (by decide)⟩

theorem test_pattern_14 : @IsPattern asciiUnicode "... -> ... ".toList [.bare dots] [.bare dots] :=
  ⟨"... ".toList, " ... ".toList, by decide, isSide_of (by decide) (by decide) (by decide) (by decide),
    isSide_of (by decide) (by decide) (by decide) (by decide)⟩

theorem test_pattern_15 : @IsPattern asciiUnicode "a b c d e -> (a b c d e)".toList [.bare ['a'], .bare ['b'], .bare ['c'], .bare ['d'], .bare ['e']] [.paren [['a'], ['b'], ['c'], ['d'], ['e']]] :=
  ⟨"a b c d e ".toList, " (a b c d e)".toList, by decide, isSide_of (by decide) (by decide) (by decide) (by decide),
    isSide_of (by decide) (by decide) (by decide) (by decide)⟩

theorem test_pattern_16 : @IsPattern asciiUnicode "... ->  (...)".toList [.bare dots] [.paren [dots]] :=
  ⟨"... ".toList, "  (...)".toList, by decide, isSide_of (by decide) (by decide) (by decide) (by decide),
    isSide_of (by decide) (by decide) (by decide) (by decide)⟩

theorem test_pattern_17 : @IsPattern asciiUnicode "a b c d e -> b (c d e) a".toList [.bare ['a'], .bare ['b'], .bare ['c'], .bare ['d'], .bare ['e']] [.bare ['b'], .paren [['c'], ['d'], ['e']], .bare ['a']] :=
  ⟨"a b c d e ".toList, " b (c d e) a".toList, by decide, isSide_of (by decide) (by decide) (by decide) (by decide),
    isSide_of (by decide) (by decide) (by decide) (by decide)⟩

theorem test_pattern_18 : @IsPattern asciiUnicode "a b ... -> b (...) a".toList [.bare ['a'], .bare ['b'], .bare dots] [.bare ['b'], .paren [dots], .bare ['a']] :=
  ⟨"a b ... ".toList, " b (...) a".toList, by decide, isSide_of (by decide) (by decide) (by decide) (by decide),
    isSide_of (by decide) (by decide) (by decide) (by decide)⟩

theorem test_pattern_19 : @IsPattern asciiUnicode "a b c d e -> b (a c d) e".toList [.bare ['a'], .bare ['b'], .bare ['c'], .bare ['d'], .bare ['e']] [.bare ['b'], .paren [['a'], ['c'], ['d']], .bare ['e']] :=
  ⟨"a b c d e ".toList, " b (a c d) e".toList, by decide, isSide_of (by decide) (by decide) (by decide) (by decide),
    isSide_of (by decide) (by decide) (by decide) (by decide)⟩

theorem test_pattern_20 : @IsPattern asciiUnicode "a b ... e -> b (a ...) e".toList [.bare ['a'], .bare ['b'], .bare dots, .bare ['e']] [.bare ['b'], .paren [['a'], dots], .bare ['e']] :=
  ⟨"a b ... e ".toList, " b (a ...) e".toList, by decide, isSide_of (by decide) (by decide) (by decide) (by decide),
    isSide_of (by decide) (by decide) (by decide) (by decide)⟩

theorem test_pattern_21 : @IsPattern asciiUnicode "a b c d e -> ".toList [.bare ['a'], .bare ['b'], .bare ['c'], .bare ['d'], .bare ['e']] [] :=
  ⟨"a b c d e ".toList, " ".toList, by decide, isSide_of (by decide) (by decide) (by decide) (by decide),
    isSide_of (by decide) (by decide) (by decide) (by decide)⟩

theorem test_pattern_22 : @IsPattern asciiUnicode " ... ->  ".toList [.bare dots] [] :=
  ⟨" ... ".toList, "  ".toList, by decide, isSide_of (by decide) (by decide) (by decide) (by decide),
    isSide_of (by decide) (by decide) (by decide) (by decide)⟩

theorem test_pattern_23 : @IsPattern asciiUnicode "a b c d e -> (e a)".toList [.bare ['a'], .bare ['b'], .bare ['c'], .bare ['d'], .bare ['e']] [.paren [['e'], ['a']]] :=
  ⟨"a b c d e ".toList, " (e a)".toList, by decide, isSide_of (by decide) (by decide) (by decide) (by decide),
    isSide_of (by decide) (by decide) (by decide) (by decide)⟩

theorem test_pattern_24 : @IsPattern asciiUnicode "a ... e -> (e a)".toList [.bare ['a'], .bare dots, .bare ['e']] [.paren [['e'], ['a']]] :=
  ⟨"a ... e ".toList, " (e a)".toList, by decide, isSide_of (by decide) (by decide) (by decide) (by decide),
    isSide_of (by decide) (by decide) (by decide) (by decide)⟩

theorem test_pattern_25 : @IsPattern asciiUnicode "a b c d e -> d (a e)".toList [.bare ['a'], .bare ['b'], .bare ['c'], .bare ['d'], .bare ['e']] [.bare ['d'], .paren [['a'], ['e']]] :=
  ⟨"a b c d e ".toList, " d (a e)".toList, by decide, isSide_of (by decide) (by decide) (by decide) (by decide),
    isSide_of (by decide) (by decide) (by decide) (by decide)⟩

theorem test_pattern_26 : @IsPattern asciiUnicode " a b c d e ... -> d (a e) ".toList [.bare ['a'], .bare ['b'], .bare ['c'], .bare ['d'], .bare ['e'], .bare dots] [.bare ['d'], .paren [['a'], ['e']]] :=
  ⟨" a b c d e ... ".toList, " d (a e) ".toList, by decide, isSide_of (by decide) (by decide) (by decide) (by decide),
    isSide_of (by decide) (by decide) (by decide) (by decide)⟩

theorem test_pattern_27 : @IsPattern asciiUnicode "a b c d e -> (a b)".toList [.bare ['a'], .bare ['b'], .bare ['c'], .bare ['d'], .bare ['e']] [.paren [['a'], ['b']]] :=
  ⟨"a b c d e ".toList, " (a b)".toList, by decide, isSide_of (by decide) (by decide) (by decide) (by decide),
    isSide_of (by decide) (by decide) (by decide) (by decide)⟩

theorem test_pattern_28 : @IsPattern asciiUnicode " ... c d e  -> (...) ".toList [.bare dots, .bare ['c'], .bare ['d'], .bare ['e']] [.paren [dots]] :=
  ⟨" ... c d e  ".toList, " (...) ".toList, by decide, isSide_of (by decide) (by decide) (by decide) (by decide),
    isSide_of (by decide) (by decide) (by decide) (by decide)⟩

theorem test_pattern_29 : @IsPattern asciiUnicode "a b c d e -> a (b) c d e".toList [.bare ['a'], .bare ['b'], .bare ['c'], .bare ['d'], .bare ['e']] [.bare ['a'], .paren [['b']], .bare ['c'], .bare ['d'], .bare ['e']] :=
  ⟨"a b c d e ".toList, " a (b) c d e".toList, by decide, isSide_of (by decide) (by decide) (by decide) (by decide),
    isSide_of (by decide) (by decide) (by decide) (by decide)⟩

theorem last_pattern : @IsPattern asciiUnicode "b ... -> ... b".toList [.bare ['b'], .bare dots] [.bare dots, .bare ['b']] :=
  ⟨"b ... ".toList, " ... b".toList, by decide, isSide_of (by decide) (by decide) (by decide) (by decide),
    isSide_of (by decide) (by decide) (by decide) (by decide)⟩

theorem five_ascii : ∀ w ∈ [['a'], ['b'], ['c'], ['d'], ['e']], IsName false w := by decide
end

/-- test_ops.py:14-23 -/
def identityPatterns : List Str :=
  ["...->...".toList, "a b c d e-> a b c d e".toList, "a b c d e ...-> ... a b c d e".toList, "a b c d e ...-> a ... b c d e".toList, "... a b c d e -> ... a b c d e".toList, "a ... e-> a ... e".toList, "a ... -> a ... ".toList, "a ... c d e -> a (...) c d e".toList]

/-- test_ops.py:25-32 -/
def equivalentRearrangePatterns : List (Str × Str) :=
  [("a b c d e -> (a b) c d e".toList, "a b ... -> (a b) ... ".toList),
   ("a b c d e -> a b (c d) e".toList, "... c d e -> ... (c d) e".toList),
   ("a b c d e -> a b c d e".toList, "... -> ... ".toList),
   ("a b c d e -> (a b c d e)".toList, "... ->  (...)".toList),
   ("a b c d e -> b (c d e) a".toList, "a b ... -> b (...) a".toList),
   ("a b c d e -> b (a c d) e".toList, "a b ... e -> b (a ...) e".toList)]

/-- test_ops.py:34-39 -/
def equivalentReductionPatterns : List (Str × Str) :=
  [("a b c d e -> ".toList, " ... ->  ".toList),
   ("a b c d e -> (e a)".toList, "a ... e -> (e a)".toList),
   ("a b c d e -> d (a e)".toList, " a b c d e ... -> d (a e) ".toList),
   ("a b c d e -> (a b)".toList, " ... c d e  -> (...) ".toList)]

section
variable {α : Type u} [PyUnicode] {E : ElemOps α} {b : Backend α} {so : SetOrder} {x y t : Tensor α} {q : Str}

/-! ### C86 -/

/-- **C86** Bits (test_ops.py:195-208): dimensions of length 2 are the bits of the place in the tensor, the last dimension
being bit 0.  With the names `i_{n-1} … i_0` on the left and `i_{p[n-1]} … i_{p[0]}` on the right the element at place `j` of
the result is the element at the place whose bit `p[k]` is bit `k` of `j`. -/
theorem C86_bits (hb : Modelled E b) {names : List Str} (hn : ∀ w ∈ names, IsName false w) {p : List Nat}
    (hp : p.Perm (List.range names.length))
    (hq : IsPattern q (names.reverse.map Elem.bare) (p.reverse.map fun k => Elem.bare (names.getD k [])))
    (hx : x.shape = List.replicate names.length 2) :
    ∃ y, (∀ so, rearrange b so (.one x) q [] = .ok y) ∧ y.shape = x.shape ∧
      ∀ i j, i < 2 ^ names.length → j < 2 ^ names.length → (∀ k, k < names.length → i.testBit (p.getD k 0) = j.testBit k) →
        y.data[j]? = x.data[i]? := by
  have hlt : ∀ k ∈ p, k < names.length := fun k hk => List.mem_range.1 (hp.subset hk)
  have hpl : p.length = names.length := by simpa using hp.length_eq
  set n := names.length with hnl
  have hq' : IsPattern q (names.reverse.map Elem.bare)
      ((p.reverse.map fun k => n - 1 - k).map fun k => Elem.bare (names.reverse.getD k [])) := by
    convert hq using 1
    rw [List.map_map]
    refine List.map_congr_left fun k hk => ?_
    have hk := hlt k (List.mem_reverse.1 hk)
    have e : names.length - 1 - (names.length - 1 - k) = k := by omega
    simp only [Function.comp_apply]
    rw [List.getD_eq_getElem _ _ (by simp; omega), List.getD_eq_getElem _ _ (by omega), List.getElem_reverse]
    simp only [← hnl] at e ⊢
    simp only [e]
  have hperm : (p.reverse.map fun k => n - 1 - k).Perm (List.range names.reverse.length) := by
    rw [List.length_reverse, ← hnl]
    refine ((List.reverse_perm p).map _).trans ((hp.map _).trans ?_)
    have : (List.range n).map (fun k => n - 1 - k) = (List.range n).reverse := by
      apply List.ext_getElem (by simp)
      intro k h1 h2
      simp
    rw [this]
    exact List.reverse_perm _
  obtain ⟨y, h1, h2, h3⟩ := C59_transpose hb (fun w h => hn w (List.mem_reverse.1 h)) hperm hq' (x := x) (by simp [hx, hnl])
  have hys : y.shape = x.shape := by
    rw [h2, hx, List.map_map]
    have : ∀ k ∈ p.reverse, ((fun k => (List.replicate n 2).getD k 0) ∘ fun k => n - 1 - k) k = 2 := by
      intro k hk
      have hk := hlt k (List.mem_reverse.1 hk)
      simp only [Function.comp_apply]
      rw [List.getD_eq_getElem _ _ (by simp; omega), List.getElem_replicate]
    rw [List.map_congr_left this]
    simp [hpl]
  refine ⟨y, h1, hys, fun i j hi hj hbits => ?_⟩
  obtain ⟨ic, i1, i2⟩ := ravel_surj (s := List.replicate n 2) (k := i) (by simpa using hi)
  obtain ⟨jc, j1, j2⟩ := ravel_surj (s := List.replicate n 2) (k := j) (by simpa using hj)
  have hic := inBounds_length i1
  have hjc := inBounds_length j1
  rw [List.length_replicate] at hic hjc
  have e : ((p.reverse.map fun k => n - 1 - k).map fun k => ic.getD k 0) = jc := by
    apply List.ext_getElem (by simp [hpl, hjc])
    intro m hm1 hm2
    have hm : m < n := by omega
    simp only [List.getElem_map, List.getElem_reverse]
    have hk : p[p.length - 1 - m]'(by omega) < n := hlt _ (List.getElem_mem _)
    rw [coords_of_bits i1 (by omega), i2]
    have := coords_of_bits j1 hm
    rw [j2, List.getD_eq_getElem _ _ hm2] at this
    rw [this, ← hbits (n - 1 - m) (by omega), List.getD_eq_getElem _ _ (by omega)]
    congr 2
    have hk2 : p[n - 1 - m]'(by omega) < n := hlt _ (List.getElem_mem _)
    simp only [hpl]
    omega
  have := h3 ic (by rw [hx, hic]; simp)
  rw [e] at this
  rw [at?_place x (by rw [hx]; exact i1), at?_place y (by rw [hys, hx]; exact j1), hys, hx, i2, j2] at this
  exact this

/-- **C86** The computation with shifts in the test: for `numpy.arange(2 ** n).reshape([2] * n)` the number at place `j` is the
one whose bit `p[k]` is bit `k` of `j`. -/
theorem C86_bits_arange {E : ElemOps Nat} {b : Backend Nat} (hb : Modelled E b) {names : List Str}
    (hn : ∀ w ∈ names, IsName false w) {p : List Nat} (hp : p.Perm (List.range names.length))
    (hq : IsPattern q (names.reverse.map Elem.bare) (p.reverse.map fun k => Elem.bare (names.getD k [])))
    {x : Tensor Nat} (hx : x.shape = List.replicate names.length 2) (hd : x.data = List.range (2 ^ names.length)) :
    ∃ y, (∀ so, rearrange b so (.one x) q [] = .ok y) ∧ y.shape = x.shape ∧
      ∀ j, j < 2 ^ names.length → ∃ v, y.data[j]? = some v ∧ v < 2 ^ names.length ∧
        ∀ k, k < names.length → v.testBit (p.getD k 0) = j.testBit k := by
  obtain ⟨y, h1, h2, h3⟩ := C86_bits hb hn hp hq hx
  refine ⟨y, h1, h2, fun j hj => ?_⟩
  have hpl : p.length = names.length := by simpa using hp.length_eq
  have hnd : p.Nodup := hp.nodup_iff.2 List.nodup_range
  let v := Nat.ofBits fun a : Fin names.length => j.testBit (p.idxOf a.1)
  have hv : v < 2 ^ names.length := Nat.ofBits_lt_two_pow _
  have hbits : ∀ k, k < names.length → v.testBit (p.getD k 0) = j.testBit k := by
    intro k hk
    have hk' : k < p.length := by omega
    have hlt : p.getD k 0 < names.length := by
      rw [List.getD_eq_getElem _ _ hk']
      exact List.mem_range.1 (hp.subset (List.getElem_mem _))
    rw [Nat.testBit_ofBits_lt _ _ hlt]
    show j.testBit (p.idxOf (p.getD k 0)) = _
    rw [List.getD_eq_getElem _ _ hk', hnd.idxOf_getElem]
  refine ⟨v, ?_, hv, hbits⟩
  rw [h3 v j hv hj hbits, hd]
  simp [hv]

/-- **C86** The stress test (test_ops.py:312-327): for a reduction that does not depend on the order of its operands,
keeping the dimensions `kept` in this order and reducing the others is transposing by `dropped ++ kept` and reducing the first
dimensions.  `t` is `x.transpose(dropped + kept)`. -/
theorem C86_stress {o : Str} (hb : Computes E o b) (ho : o ∈ builtins) (hf : o = "mean".toList → b.isFloat x = true)
    (hop : ∀ vs ws : List α, vs.Perm ws → E.op o vs = E.op o ws) {ns : List Str} (hn : ∀ w ∈ ns, IsName false w)
    {dropped kept : List Nat} (hp : (dropped ++ kept).Perm (List.range ns.length)) (hd : dropped ≠ [])
    (hq : IsPattern q (ns.map Elem.bare) (kept.map fun k => Elem.bare (ns.getD k []))) (hx : x.shape.length = ns.length)
    (ht : IsTranspose (dropped ++ kept) x t) :
    reduce b so (.one x) q (.name o) [] = .ok y ↔ y.shape = kept.map (fun k => x.shape.getD k 0) ∧
      ∀ j, inBounds j y.shape = true → ∃ vs v,
        (indices (dropped.map fun k => x.shape.getD k 0)).map (fun c => t.at? (c ++ j)) = vs.map some ∧
          E.op o vs = .ok v ∧ y.at? j = some v := by
  have hGR : (kept.map fun k => Elem.bare (ns.getD k [])) = (kept.map fun k => ns.getD k []).map Elem.bare := by
    rw [List.map_map]; rfl
  rw [hGR] at hq
  have hlt : ∀ k ∈ dropped ++ kept, k < ns.length := fun k hk => List.mem_range.1 (hp.subset hk)
  have hltd : ∀ k ∈ dropped, k < ns.length := fun k hk => hlt k (List.mem_append_left _ hk)
  have hltk : ∀ k ∈ kept, k < ns.length := fun k hk => hlt k (List.mem_append_right _ hk)
  have hkn : ∀ w ∈ kept.map fun k => ns.getD k [], w ∈ ns := by
    intro w hw
    obtain ⟨k, hk, rfl⟩ := List.mem_map.1 hw
    have := hltk k hk
    simp [this]
  have hnd : (ns.map Axis.str).Nodup := by
    obtain ⟨l, r, _, hL, _⟩ := hq
    have := side_names_nodup hL (by rw [words_bares]; exact hn)
    rwa [words_bares] at this
  have hlen := map_envOf hnd (i := x.shape) (by simp [hx])
  generalize envOf (ns.map Axis.str) x.shape = len at hlen
  have hacc := names_accepted (op := .name o) (kw := []) hn (by rw [words_bares]; exact fun w hw => hn w (hkn w hw)) hq
    (.inr (.inr ⟨red_names_isRed ho, fun s hs => by cases hs; exact ho, by rw [words_bares]; exact hkn⟩)) (by simp) hx hlen
    (by simp)
  rw [nameGroups_bares] at hacc
  have hall : ((dropped ++ kept).map fun k => ns.getD k []).Perm ns := by
    have h1 := hp.map fun k => ns.getD k []
    have h2 : (List.range ns.length).map (fun k => ns.getD k []) = ns := by
      apply List.ext_getElem (by simp)
      intro k h1 h2
      simp [h2]
    rwa [h2] at h1
  have hDK : ((dropped.map fun k => ns.getD k []).map Axis.str ++ (kept.map fun k => ns.getD k []).map Axis.str).Nodup := by
    rw [← List.map_append, ← List.map_append]
    exact ((hall.map Axis.str).nodup_iff).2 hnd
  have hmem : ∀ a, a ∈ ns.map Axis.str ↔
      a ∈ (dropped.map fun k => ns.getD k []).map Axis.str ++ (kept.map fun k => ns.getD k []).map Axis.str := by
    intro a
    rw [← List.map_append, ← List.map_append]
    exact (hall.map Axis.str).symm.mem_iff
  have hdrops : Drops ((ns.map Axis.str).map fun a => [a]) (((kept.map fun k => ns.getD k []).map Axis.str).map fun a => [a]) := by
    obtain ⟨k, hk⟩ := List.exists_mem_of_ne_nil _ hd
    unfold Drops
    rw [singles_flatten, singles_flatten]
    have ha : Axis.str (ns.getD k []) ∈ (dropped.map fun k => ns.getD k []).map Axis.str :=
      List.mem_map_of_mem (List.mem_map_of_mem hk)
    exact ⟨_, (hmem _).2 (List.mem_append_left _ ha), fun h => (List.nodup_append.1 hDK).2.2 _ ha _ h rfl⟩
  have hmv := ht.moves hp hlen
  rw [List.map_append, List.map_append] at hmv
  have hsx : x.shape = ((ns.map Axis.str).map fun a => [a]).map (groupSize len) := by rw [singles_size, hlen]
  have hiff : Reduces (E.op o) len ((ns.map Axis.str).map fun a => [a])
        (((kept.map fun k => ns.getD k []).map Axis.str).map fun a => [a]) x y ↔
      Reduces (E.op o) len (((dropped.map fun k => ns.getD k []).map Axis.str ++
          (kept.map fun k => ns.getD k []).map Axis.str).map fun a => [a])
        (((kept.map fun k => ns.getD k []).map Axis.str).map fun a => [a]) t y := by
    constructor
    · exact (hmv.symm hsx).reduces hop (by rwa [singles_flatten]) (by rwa [singles_flatten])
        (by rw [singles_flatten, singles_flatten]; exact fun a => (hmem a).symm)
    · exact hmv.reduces hop (by rwa [singles_flatten]) (by rwa [singles_flatten])
        (by rw [singles_flatten, singles_flatten]; exact hmem)
  rw [reduce_of_accepted hb ho intKw_nil (isPattern_split hq).1 hacc]
  constructor
  · rintro (⟨h, -⟩ | ⟨-, -, h⟩)
    · exact absurd hdrops h
    · have := (reduces_first hDK).1 (hiff.1 h)
      rw [names_read hltk, names_read hltd, hlen] at this
      exact ⟨this.1, fun j hj => this.2 j (by rw [← this.1]; exact hj)⟩
  · rintro ⟨h1, h2⟩
    refine .inr ⟨hdrops, hf, hiff.2 ((reduces_first hDK).2 ?_)⟩
    rw [names_read hltk, names_read hltd, hlen]
    exact ⟨h1, fun j hj => h2 j (by rw [h1]; exact hj)⟩

/-- **C86** The stress test with nothing to reduce: the result is the transposed tensor, whatever the name of the reduction
(test_ops.py:316, 325: `skipped` is 0). -/
theorem C86_stress_none {o : Str} (hb : Computes E o b) (ho : o ∈ builtins) {ns : List Str} (hn : ∀ w ∈ ns, IsName false w)
    {kept : List Nat} (hp : kept.Perm (List.range ns.length))
    (hq : IsPattern q (ns.map Elem.bare) (kept.map fun k => Elem.bare (ns.getD k []))) (hx : x.shape.length = ns.length)
    (ht : IsTranspose kept x t) : reduce b so (.one x) q (.name o) [] = .ok t := by
  have hGR : (kept.map fun k => Elem.bare (ns.getD k [])) = (kept.map fun k => ns.getD k []).map Elem.bare := by
    rw [List.map_map]; rfl
  rw [hGR] at hq
  have hmem : ∀ w, w ∈ ns ↔ w ∈ kept.map fun k => ns.getD k [] := by
    intro w
    constructor
    · intro hw
      obtain ⟨k, hk, rfl⟩ := List.getElem_of_mem hw
      exact List.mem_map.2 ⟨k, hp.symm.subset (List.mem_range.2 hk), by simp [hk]⟩
    · intro hw
      obtain ⟨k, hk, rfl⟩ := List.mem_map.1 hw
      have := List.mem_range.1 (hp.subset hk)
      simp [this]
  have hnd : (ns.map Axis.str).Nodup := by
    obtain ⟨l, r, _, hL, _⟩ := hq
    have := side_names_nodup hL (by rw [words_bares]; exact hn)
    rwa [words_bares] at this
  have hlen := map_envOf hnd (i := x.shape) (by simp [hx])
  generalize envOf (ns.map Axis.str) x.shape = len at hlen
  have hacc := names_accepted (op := .name o) (kw := []) hn (by rw [words_bares]; exact fun w hw => hn w ((hmem w).2 hw)) hq
    (.inr (.inr ⟨red_names_isRed ho, fun s hs => by cases hs; exact ho, by rw [words_bares]; exact fun w => (hmem w).2⟩))
    (by simp) hx hlen (by simp)
  rw [nameGroups_bares] at hacc
  rw [reduce_of_accepted hb ho intKw_nil (isPattern_split hq).1 hacc]
  refine .inl ⟨?_, ht.moves hp hlen⟩
  rintro ⟨a, ha, hna⟩
  rw [singles_flatten] at ha hna
  obtain ⟨w, hw, rfl⟩ := List.mem_map.1 ha
  exact hna (List.mem_map_of_mem ((hmem w).1 hw))

/-- **C86** Names and an ellipsis in any order on the right, without parentheses: the name `w` of length `d w` and the
dimensions `s` of the ellipsis are moved as a whole. -/
theorem C86_dots (hb : Modelled E b) {ws ws' : List Str} (hw : ∀ w ∈ ws, w = dots ∨ IsName false w) (hd : dots ∈ ws)
    (hp : ws'.Perm ws) (hq : IsPattern q (ws.map Elem.bare) (ws'.map Elem.bare)) {d : Str → Nat} {s : List Nat}
    (hx : x.shape = readWords ws d s) :
    ∃ y, (∀ so, rearrange b so (.one x) q [] = .ok y) ∧ y.shape = readWords ws' d s ∧
      ∀ c e, e.length = s.length → y.at? (readWords ws' c e) = x.at? (readWords ws c e) :=
  dots_moves hb hw hd hp hq hx

/-- **C86** Lists of tensors of one shape (test_ops.py:396-413): `'...->...'` stacks them along a new first dimension and
`'b ... -> ... b'` along a new last one. -/
theorem C86_lists (hb : Modelled E b) {xs : List (Tensor α)} (hne : xs ≠ []) {s : List Nat} (hs : ∀ x ∈ xs, x.shape = s) :
    (∃ y, (∀ so, rearrange b so (.many xs) "...->...".toList [] = .ok y) ∧ y.shape = xs.length :: s ∧
      ∀ m j, j.length = s.length → y.at? (m :: j) = xs[m]?.bind fun x => x.at? j) ∧
    ∃ y, (∀ so, rearrange b so (.many xs) "b ... -> ... b".toList [] = .ok y) ∧ y.shape = s ++ [xs.length] ∧
      ∀ m j, j.length = s.length → y.at? (j ++ [m]) = xs[m]?.bind fun x => x.at? j := by
  obtain ⟨z, z1, z2, z3⟩ := many_eq_one hb hne hs
  constructor
  · obtain ⟨y, h1, h2, h3⟩ := C86_dots (ws := [dots]) (ws' := [dots]) hb (fun w hw => .inl (by simpa using hw)) (by simp) (.refl _)
      (isPattern_ascii test_pattern_1) (d := fun _ => 0) (s := z.shape) (x := z) (by simp [readWords])
    refine ⟨y, fun so => (z3 so _ _ _).trans (h1 so), by rw [h2, ← z1]; simp [readWords], fun m j hj => ?_⟩
    have := h3 (fun _ => 0) (m :: j) (by rw [z1]; simp [hj])
    simp only [readWords, List.flatMap_cons, if_true, List.flatMap_nil, List.append_nil] at this
    rw [this, z2]
  · have hdb : ['b'] ≠ dots := by decide
    obtain ⟨y, h1, h2, h3⟩ := C86_dots (ws := [['b'], dots]) (ws' := [dots, ['b']]) hb
      (fun w hw => by
        simp only [List.mem_cons, List.not_mem_nil, or_false] at hw
        rcases hw with rfl | rfl
        · exact .inr (isName_ascii (five_ascii _ (by decide)))
        · exact .inl rfl) (by simp) (List.Perm.swap _ _ _)
      (isPattern_ascii last_pattern) (d := fun _ => xs.length) (s := s) (x := z) (by simp [readWords, hdb, z1])
    refine ⟨y, fun so => (z3 so _ _ _).trans (h1 so), by rw [h2]; simp [readWords, hdb], fun m j hj => ?_⟩
    have := h3 (fun _ => m) j hj
    simp only [readWords, List.flatMap_cons, if_true, List.flatMap_nil, List.append_nil, if_neg hdb] at this
    rw [this, List.singleton_append, z2]

/-- **C86** A `rearrange` whose two sides are the same returns the tensor. -/
theorem C86_same_sides (hb : Modelled E b) {kw : List (Str × Size)} (hkw : IntKw kw) {G : List Elem} (hq : IsPattern q G G)
    (h : rearrange b so (.one x) q kw = .ok y) : y = x := by
  have hdata := C59_reshape hb hkw hq rfl h
  obtain ⟨GL', GR', L, R, len, ha, hm⟩ :=
    (move_iff hb.lawful so (isPattern_split hq).1 hkw (.inl rfl) (fun h => by cases h) y).1 h
  obtain ⟨rfl, rfl⟩ := isPattern_unique hq ha.pattern
  have hs := ha.prepared.sides
  rw [SidesOK, if_pos rfl] at hs
  obtain ⟨n, -, rfl, rfl, -⟩ := ha.prepared.groups
  have hshape : y.shape = x.shape := by
    rw [hm.1, ha.fits.shape_eq, denote_units (s := 1) (s' := 0) (k := 0) (k' := 0) hs.units_left]
  obtain ⟨ys, yd, yw⟩ := y
  obtain ⟨xs, xd, xw⟩ := x
  simp only at hdata hshape
  subst hdata hshape
  rfl

/-- **C86** Names on the left and the same names in the same order on the right, some of them in parentheses. -/
theorem C86_names_identity (hb : Modelled E b) {ns : List Str} (hn : ∀ w ∈ ns, IsName false w) {GR : List Elem}
    (hG : GR.map Elem.words = ns.map fun w => [w]) (hq : IsPattern q (ns.map Elem.bare) GR) (hx : x.shape.length = ns.length) :
    ∀ so, rearrange b so (.one x) q [] = .ok x := by
  have hwR : sideWords GR = ns := by
    unfold sideWords
    rw [List.flatMap_def, hG, ← List.flatMap_def, List.flatMap_singleton']
  have hng : nameGroups GR = (ns.map Axis.str).map fun a => [a] := by
    unfold nameGroups
    have : GR.map (fun e => e.words.map Axis.str) = (GR.map Elem.words).map (fun ws => ws.map Axis.str) := by
      rw [List.map_map]; rfl
    rw [this, hG]
    simp
  have hnd : (ns.map Axis.str).Nodup := by
    obtain ⟨l, r, _, hL, _⟩ := hq
    have := side_names_nodup hL (by rw [words_bares]; exact hn)
    rwa [words_bares] at this
  have hlen := map_envOf hnd (i := x.shape) (by simp [hx])
  generalize envOf (ns.map Axis.str) x.shape = len at hlen
  have hacc := names_accepted (op := .name "rearrange".toList) (kw := []) hn (by rw [hwR]; exact hn) hq
    (.inl ⟨rfl, by rw [hwR]; exact fun _ => Iff.rfl⟩) (by simp) hx hlen (by simp)
  rw [hng] at hacc
  obtain ⟨y, h1, h2, -⟩ := hacc.moves (red := .name "rearrange".toList) hb.lawful intKw_nil (hacc.move_sub (.inl rfl))
  have hdata := C59_reshape hb intKw_nil hq (by rw [words_bares, hwR]) (h1 idOrder)
  have hshape : y.shape = x.shape := by rw [h2, singles_size, hlen]
  have : y = x := by
    obtain ⟨ys, yd, yw⟩ := y
    obtain ⟨xs, xd, xw⟩ := x
    simp only at hdata hshape
    subst hdata hshape
    rfl
  rw [this] at h1
  exact h1

theorem five_names : ∀ w ∈ [['a'], ['b'], ['c'], ['d'], ['e']], IsName false w :=
  fun w hw => isName_ascii (five_ascii w hw)

/-- A pattern of the tests and the one with names for the ellipsis. -/
theorem same_filled {q q' : Str} {GL GR GL' GR' : List Elem} (es : List Str) (hq : @IsPattern asciiUnicode q GL GR)
    (hq' : @IsPattern asciiUnicode q' GL' GR') (hL : fillEllipsis es GL = GL') (hR : fillEllipsis es GR = GR')
    (hname : ∀ e ∈ es, e ∈ [['a'], ['b'], ['c'], ['d'], ['e']]) (hnd : es.Nodup) (hfresh : ∀ e ∈ es, e ∉ sideWords GL ++ sideWords GR)
    (hd : dots ∈ sideWords GL) (hpar : ∀ e ∈ GL, dots ∈ e.words → e = .bare dots) (hx : x.ndim + 1 = GL.length + es.length)
    (red : Reduction α) (hc : es ≠ [] ∨ dots ∈ sideWords GR ∨ isRed red.kind) (b : Backend α) (so so' : SetOrder) :
    reduce b so' (.one x) q' red [] = reduce b so (.one x) q red [] := by
  subst hL hR
  exact C13_ellipsis (isPattern_ascii hq) (isPattern_ascii hq') (by simp) (fun e he => five_names e (hname e he)) hnd
    (fun e he => ⟨hfresh e he, by simp⟩) hd (fun ws h hw => by cases hpar _ h hw) hx red hc b so so'

/-- **C86** The identity patterns (test_ops.py:14-23, 55-56) return every tensor with five dimensions unchanged. -/
theorem C86_identity (hb : Modelled E b) (hx : x.ndim = 5) : ∀ q ∈ identityPatterns, rearrange b so (.one x) q [] = .ok x := by
  have h5 : x.shape.length = [['a'], ['b'], ['c'], ['d'], ['e']].length := hx
  have h0 : ∀ so, rearrange b so (.one x) "a b c d e -> a b c d e".toList [] = .ok x :=
    C86_names_identity hb five_names rfl (isPattern_ascii test_pattern_13) h5
  simp only [identityPatterns, List.mem_cons, List.not_mem_nil, or_false, forall_eq_or_imp, forall_eq]
  refine ⟨?_, ?_, ?_, ?_, ?_, ?_, ?_, ?_⟩
  · exact (same_filled [['a'], ['b'], ['c'], ['d'], ['e']] test_pattern_1 test_pattern_13 rfl rfl (by decide) (by decide) (by decide) (by decide) (by decide)
      (by rw [hx]; rfl) (.name "rearrange".toList) (.inr (.inl (by decide))) b so idOrder).symm.trans (h0 idOrder)
  · exact C86_names_identity hb five_names rfl (isPattern_ascii test_pattern_2) h5 so
  · exact (same_filled [] test_pattern_3 test_pattern_13 rfl rfl (by decide) (by decide) (by decide) (by decide) (by decide)
      (by rw [hx]; rfl) (.name "rearrange".toList) (.inr (.inl (by decide))) b so idOrder).symm.trans (h0 idOrder)
  · exact (same_filled [] test_pattern_4 test_pattern_13 rfl rfl (by decide) (by decide) (by decide) (by decide) (by decide)
      (by rw [hx]; rfl) (.name "rearrange".toList) (.inr (.inl (by decide))) b so idOrder).symm.trans (h0 idOrder)
  · exact (same_filled [] test_pattern_5 test_pattern_13 rfl rfl (by decide) (by decide) (by decide) (by decide) (by decide)
      (by rw [hx]; rfl) (.name "rearrange".toList) (.inr (.inl (by decide))) b so idOrder).symm.trans (h0 idOrder)
  · exact (same_filled [['b'], ['c'], ['d']] test_pattern_6 test_pattern_13 rfl rfl (by decide) (by decide) (by decide) (by decide) (by decide)
      (by rw [hx]; rfl) (.name "rearrange".toList) (.inr (.inl (by decide))) b so idOrder).symm.trans (h0 idOrder)
  · exact (same_filled [['b'], ['c'], ['d'], ['e']] test_pattern_7 test_pattern_13 rfl rfl (by decide) (by decide) (by decide) (by decide) (by decide)
      (by rw [hx]; rfl) (.name "rearrange".toList) (.inr (.inl (by decide))) b so idOrder).symm.trans (h0 idOrder)
  · exact (same_filled [['b']] test_pattern_8 test_pattern_29 rfl rfl (by decide) (by decide) (by decide) (by decide) (by decide)
      (by rw [hx]; rfl) (.name "rearrange".toList) (.inr (.inl (by decide))) b so idOrder).symm.trans ((C86_names_identity hb five_names rfl (isPattern_ascii test_pattern_29) h5) idOrder)

/-- **C86** The equivalent patterns for `rearrange` (test_ops.py:25-32, 58-59): the same outcome for every tensor with five
dimensions, for every operation and backend. -/
theorem C86_equivalent_rearrange (hx : x.ndim = 5) (red : Reduction α) (b : Backend α) (so so' : SetOrder) :
    ∀ q ∈ equivalentRearrangePatterns, reduce b so (.one x) q.1 red [] = reduce b so' (.one x) q.2 red [] := by
  simp only [equivalentRearrangePatterns, List.mem_cons, List.not_mem_nil, or_false, forall_eq_or_imp, forall_eq]
  refine ⟨?_, ?_, ?_, ?_, ?_, ?_⟩
  · exact same_filled [['c'], ['d'], ['e']] test_pattern_10 test_pattern_9 rfl rfl (by decide) (by decide) (by decide) (by decide) (by decide)
      (by rw [hx]; rfl) red (.inl (by decide)) b so' so
  · exact same_filled [['a'], ['b']] test_pattern_12 test_pattern_11 rfl rfl (by decide) (by decide) (by decide) (by decide) (by decide)
      (by rw [hx]; rfl) red (.inl (by decide)) b so' so
  · exact same_filled [['a'], ['b'], ['c'], ['d'], ['e']] test_pattern_14 test_pattern_13 rfl rfl (by decide) (by decide) (by decide) (by decide) (by decide)
      (by rw [hx]; rfl) red (.inl (by decide)) b so' so
  · exact same_filled [['a'], ['b'], ['c'], ['d'], ['e']] test_pattern_16 test_pattern_15 rfl rfl (by decide) (by decide) (by decide) (by decide) (by decide)
      (by rw [hx]; rfl) red (.inl (by decide)) b so' so
  · exact same_filled [['c'], ['d'], ['e']] test_pattern_18 test_pattern_17 rfl rfl (by decide) (by decide) (by decide) (by decide) (by decide)
      (by rw [hx]; rfl) red (.inl (by decide)) b so' so
  · exact same_filled [['c'], ['d']] test_pattern_20 test_pattern_19 rfl rfl (by decide) (by decide) (by decide) (by decide) (by decide)
      (by rw [hx]; rfl) red (.inl (by decide)) b so' so

/-- **C86** The equivalent patterns for reductions (test_ops.py:34-39, 61-63, 372-379): the same outcome for every tensor with
five dimensions, for every reduction by name or by a callable and every backend. -/
theorem C86_equivalent_reduction (hx : x.ndim = 5) (red : Reduction α) (hr : isRed red.kind) (b : Backend α) (so so' : SetOrder) :
    ∀ q ∈ equivalentReductionPatterns, reduce b so (.one x) q.1 red [] = reduce b so' (.one x) q.2 red [] := by
  simp only [equivalentReductionPatterns, List.mem_cons, List.not_mem_nil, or_false, forall_eq_or_imp, forall_eq]
  refine ⟨?_, ?_, ?_, ?_⟩
  · exact same_filled [['a'], ['b'], ['c'], ['d'], ['e']] test_pattern_22 test_pattern_21 rfl rfl (by decide) (by decide) (by decide) (by decide) (by decide)
      (by rw [hx]; rfl) red (.inr (.inr hr)) b so' so
  · exact same_filled [['b'], ['c'], ['d']] test_pattern_24 test_pattern_23 rfl rfl (by decide) (by decide) (by decide) (by decide) (by decide)
      (by rw [hx]; rfl) red (.inr (.inr hr)) b so' so
  · exact same_filled [] test_pattern_26 test_pattern_25 rfl rfl (by decide) (by decide) (by decide) (by decide) (by decide)
      (by rw [hx]; rfl) red (.inr (.inr hr)) b so' so
  · exact same_filled [['a'], ['b']] test_pattern_28 test_pattern_27 rfl rfl (by decide) (by decide) (by decide) (by decide) (by decide)
      (by rw [hx]; rfl) red (.inr (.inr hr)) b so' so

end

section
attribute [local instance] asciiUnicode
-- bits: three dimensions of length 2, permutation [1, 2, 0]
example : IsPattern "k j i -> i k j".toList ([['i'], ['j'], ['k']].reverse.map Elem.bare)
    ([1, 2, 0].reverse.map fun k => Elem.bare ([['i'], ['j'], ['k']].getD k [])) :=
  ⟨"k j i ".toList, " i k j".toList, by decide, isSide_of (by decide) (by decide) (by decide) (by decide),
    isSide_of (by decide) (by decide) (by decide) (by decide)⟩
def natOps : ElemOps Nat := ⟨fun _ vs => .ok vs.sum⟩
example : rearrange (numpyBackend natOps true) idOrder (.one ⟨[2, 2, 2], [0, 1, 2, 3, 4, 5, 6, 7], rfl⟩) "k j i -> i k j".toList [] =
    .ok ⟨[2, 2, 2], [0, 2, 4, 6, 1, 3, 5, 7], rfl⟩ := by rfl
-- the number at place 3 is 6: bits 1 and 2 of 6 are bits 0 and 1 of 3
example : (6).testBit 1 = (3).testBit 0 ∧ (6).testBit 2 = (3).testBit 1 ∧ (6).testBit 0 = (3).testBit 2 := by decide
-- the stress test: dimensions of lengths 2, 3, 1; the second is reduced, the others are swapped
example : IsPattern "a b c -> c a".toList ([['a'], ['b'], ['c']].map Elem.bare) ([2, 0].map fun k => Elem.bare ([['a'], ['b'], ['c']].getD k [])) :=
  ⟨"a b c ".toList, " c a".toList, by decide, isSide_of (by decide) (by decide) (by decide) (by decide),
    isSide_of (by decide) (by decide) (by decide) (by decide)⟩
example : ([1] ++ [2, 0]).Perm (List.range 3) := by decide
example : IsTranspose ([1] ++ [2, 0]) i231 (⟨[3, 1, 2], [0, 3, 1, 4, 2, 5], rfl⟩ : Tensor ℤ) := by
  refine ⟨rfl, fun i hi => ?_⟩
  obtain ⟨a, c, d, rfl⟩ : ∃ a c d, i = [a, c, d] := by
    match i, hi with
    | [a, c, d], _ => exact ⟨a, c, d, rfl⟩
  simp only [Tensor.at?, i231, List.cons_append, List.nil_append, List.map_cons, List.map_nil, List.getD_cons_succ,
    List.getD_cons_zero, inBounds, Bool.and_true, Bool.and_eq_true, decide_eq_true_eq]
  by_cases h : a < 2 ∧ c < 3 ∧ d < 1
  · rw [if_pos h, if_pos ⟨h.2.1, h.2.2, h.1⟩]
    obtain ⟨h1, h2, h3⟩ := h
    interval_cases a <;> interval_cases c <;> interval_cases d <;> rfl
  · rw [if_neg h, if_neg (fun h' => h ⟨h'.2.2, h'.1, h'.2.1⟩)]
example : reduce (numpyBackend intOps true) idOrder (.one i231) "a b c -> c a".toList (.name "sum".toList) [] =
    .ok ⟨[1, 2], [3, 12], rfl⟩ := by rfl
-- an ellipsis that is moved
example : IsPattern "b ... -> ... b".toList ([['b'], dots].map Elem.bare) ([dots, ['b']].map Elem.bare) :=
  ⟨"b ... ".toList, " ... b".toList, by decide, isSide_of (by decide) (by decide) (by decide) (by decide),
    isSide_of (by decide) (by decide) (by decide) (by decide)⟩
example : i231.shape = readWords [['b'], dots] (fun _ => 2) [3, 1] ∧ readWords [dots, ['b']] (fun _ => 2) [3, 1] = [3, 1, 2] := by decide
example : rearrange (torchBackend intOps true) idOrder (.many [t23, t23.map (· + 10)]) "b ... -> ... b".toList [] =
    .ok ⟨[2, 3, 2], [0, 10, 1, 11, 2, 12, 3, 13, 4, 14, 5, 15], rfl⟩ := by rfl
-- equal sides
example : rearrange (numpyBackend intOps true) idOrder (.one t43) "(a b) ... -> (a b) ...".toList [kwInt "a" 2] = .ok t43 := by rfl
-- five dimensions
def five : Tensor ℤ := ⟨[1, 2, 1, 3, 1], [0, 1, 2, 3, 4, 5], rfl⟩
example : rearrange (numpyBackend intOps true) idOrder (.one five) "a b ... e -> b (a ...) e".toList [] =
    .ok ⟨[2, 3, 1], [0, 1, 2, 3, 4, 5], rfl⟩ := by rfl
example : reduce (numpyBackend intOps true) idOrder (.one five) " a b c d e ... -> d (a e) ".toList (.name "sum".toList) [] =
    .ok ⟨[3, 1], [3, 5, 7], rfl⟩ := by rfl
end

end Einops
