import Verif.Props.Algebra

/-!
# Numbers in patterns are decimal numerals

Property C42, continued: the length written by a numeral is the number it denotes.
-/

namespace Einops

universe u

section
variable {α : Type u} [PyUnicode] {E : ElemOps α} {b : Backend α} {so : SetOrder} {x y z : Tensor α}
  {GL GR : List Elem} {pattern : Str} {kw : List (Str × Size)}

/-- **C42** The numeral of `n` is a number of a pattern and stands for `n`; appending a digit to any number multiplies it
by ten and adds the digit (digits of all scripts, as in Python). -/
theorem C42_decimal (n : Nat) : IsNumber (natStr n) ∧ decimalValue (natStr n) = n ∧
    ∀ (w : Str) (c : Char) (d : Nat), PyUnicode.decimal c = some d →
      (decimalValue [c] = d ∧ decimalValue (w ++ [c]) = 10 * decimalValue w + d) := by
  have hdig : ∀ c ∈ natStr n, c.isDigit = true := fun c hc => Nat.isDigit_of_mem_toDigits (by omega) (by omega) hc
  refine ⟨?_, ?_, ?_⟩
  · exact ⟨natStr_ne_nil n, fun c hc => ⟨_, (PyUnicode.ascii_digit c (hdig c hc)).2.1⟩⟩
  · have h := Nat.ofDigitChars_toDigits (b := 10) (n := n) (by omega) (by omega)
    refine Eq.trans ?_ h
    unfold decimalValue Nat.ofDigitChars
    have key : ∀ (l : Str) (a : Nat), (∀ c ∈ l, c.isDigit = true) →
        l.foldl (fun n c => n * 10 + (PyUnicode.decimal c).getD 0) a =
          l.foldl (fun s c => 10 * s + (c.toNat - '0'.toNat)) a := by
      intro l
      induction l with
      | nil => intros; rfl
      | cons c l ih =>
        intro a hl
        rw [List.foldl_cons, List.foldl_cons, ih _ (fun d hd => hl d (by simp [hd])),
          (PyUnicode.ascii_digit c (hl c (by simp))).2.1, Nat.mul_comm]
        rfl
    exact key _ 0 hdig
  · intro w c d hc
    unfold decimalValue
    rw [List.foldl_append]
    simp only [List.foldl_cons, List.foldl_nil, hc, Option.getD_some]
    omega

/-- the axes of numerals multiply to the product of the numbers -/
theorem groupSize_numerals {len : AxisMap} {s : Nat} (ns : List Nat) (k : Nat)
    (h : ∀ i v, Axis.anon s i v ∈ wordsAxes s k (ns.map natStr) → len (.anon s i v) = v) :
    groupSize len (wordsAxes s k (ns.map natStr)) = ns.prod ∧ Axis.str ellipsisStr ∉ wordsAxes s k (ns.map natStr) := by
  induction ns generalizing k with
  | nil => simp [wordsAxes, groupSize]
  | cons n ns ih =>
    obtain ⟨h1, h2, -⟩ := C42_decimal n
    have hw : wordAxes s k (natStr n) = if n = 1 then [] else [.anon s k n] := by
      unfold wordAxes
      rw [if_neg (number_ne_dots h1), if_pos h1, h2]
    simp only [List.map_cons, wordsAxes, hw] at h ⊢
    obtain ⟨i1, i2⟩ := ih (k + 1) (fun i v hm => h i v (List.mem_append_right _ hm))
    refine ⟨?_, ?_⟩
    · rw [groupSize, List.map_append, List.prod_append, ← groupSize, ← groupSize, i1, List.prod_cons]
      congr 1
      split
      · subst n; rfl
      · rename_i hn
        rw [if_neg hn] at h
        simp [groupSize, h k n (by simp)]
    · simp only [List.mem_append, not_or]
      refine ⟨?_, i2⟩
      split <;> simp

/-- **C42** A numeral, or a group of numerals, on the left only fits a dimension of that length (the product), and on the
right gives a dimension of that length.  The position is counted from the front if the ellipsis is not before it and from
the end if it is not after it. -/
theorem C42_numeral_dimension {red : Reduction α} (hb : Modelled E b) (hkw : IntKw kw) (hp : IsPattern pattern GL GR)
    (hneg : red.kind = .name "repeat".toList → RefusesNegative E b ∨ ∀ p ∈ kw, 0 ≤ p.2.val)
    (hcall : ∀ f, red ≠ .callable f) (hred : ∀ o, red = .name o → isRed (.name o) → Computes E o b)
    (h : reduce b so (.one x) pattern red kw = .ok y) {e : Elem} {ns : List Nat} (he : e.words = ns.map natStr)
    (A B : List Elem) :
    (GL = A ++ e :: B → (Elem.bare dots ∉ A → x.shape[A.length]? = some ns.prod) ∧
      (Elem.bare dots ∉ B → B.length + 1 ≤ x.shape.length ∧ x.shape[x.shape.length - (B.length + 1)]? = some ns.prod)) ∧
    (GR = A ++ e :: B → (Elem.bare dots ∉ A → y.shape[A.length]? = some ns.prod) ∧
      (Elem.bare dots ∉ B → B.length + 1 ≤ y.shape.length ∧ y.shape[y.shape.length - (B.length + 1)]? = some ns.prod)) := by
  obtain ⟨L, R, len, ha, hy⟩ := accepted_shapes hb hkw hp hneg hcall hred h
  obtain ⟨n, _, hL, hR, _⟩ := ha.prepared.groups
  have hden : ∀ s k, denote s k (e :: B) = .group (wordsAxes s k (ns.map natStr)) :: denote s (k + ns.length) B := by
    intro s k
    cases e with
    | bare w =>
      obtain ⟨n, rfl⟩ : ∃ n, ns = [n] := by
        match ns, he with
        | [n], _ => exact ⟨n, rfl⟩
      have : w = natStr n := by simpa [Elem.words] using he
      subst this
      simp only [denote]
      rw [if_neg (number_ne_dots (C42_decimal n).1)]
      simp [wordsAxes]
    | paren ws =>
      have : ws = ns.map natStr := he
      subst this
      simp [denote]
  have hnum : ∀ s (gs : List (List Axis)), (∀ i v, Axis.anon s i v ∈ gs.flatten → len (.anon s i v) = v) →
      ∀ k, ∃ k' g, denote s k (e :: B) = .group g :: denote s k' B ∧ Axis.str ellipsisStr ∉ g ∧
        ((∀ a ∈ g, a ∈ gs.flatten) → groupSize len g = ns.prod) := by
    intro s gs hgs k
    refine ⟨_, _, hden s k, ?_, fun hm => (groupSize_numerals ns k (fun i v hv => hgs i v (hm _ hv))).1⟩
    refine (groupSize_numerals (len := fun a => match a with | .anon _ _ v => v | _ => 0) ns k (fun i v _ => rfl)).2
  exact ⟨fun hG => shape_at hG hL (hnum 0 L (fun i v hm => ha.fits.number_eq _ i v (List.mem_append_left _ hm))) ha.fits.shape_eq,
    fun hG => shape_at hG hR (hnum 1 R (fun i v hm => ha.fits.number_eq _ i v (List.mem_append_right _ hm))) hy⟩

end

section
attribute [local instance] asciiUnicode

example : natStr 120 = "120".toList := by rfl
example : (repeat_ (numpyBackend intOps true) idOrder (.one t23) "a b -> 12 a (b 10)".toList []).map Tensor.shape =
    .ok [12, 2, 30] := by decide +kernel
example : (reduce (numpyBackend intOps true) idOrder (.one ⟨[12, 1], List.replicate 12 1, rfl⟩) "12 a -> a".toList
    (.name "sum".toList) []).map Tensor.data = .ok [12] := by decide +kernel
example : reduce (numpyBackend intOps true) idOrder (.one ⟨[3, 1], List.replicate 3 1, rfl⟩) "12 a -> a".toList
    (.name "sum".toList) [] = .error .einops := by decide +kernel
end

end Einops
