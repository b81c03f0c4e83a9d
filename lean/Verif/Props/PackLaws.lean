import Verif.Proofs.PackLaws
import Verif.Props.Packing

/-!
# Laws of `pack` and `unpack`
-/

namespace Einops

universe u

section
variable {α : Type u} [PyUnicode] {E : ElemOps α} {b : Backend α} {so : SetOrder} {ops : PackOps α} {pat q : Str}
  {A B C : List Str}

/-! ### C50 -/

/-- **C50** Packing one tensor with the pattern `A * B` is `rearrange` with `A ... B -> A (...) B`. -/
theorem C50_pack_one (hb : Modelled E b) (ho : PackModelled ops) (hn : ∀ w ∈ A ++ B, IsName false w)
    (hp : IsPackPattern pat A.length B.length)
    (hq : IsPattern q (A.map Elem.bare ++ .bare dots :: B.map Elem.bare) (A.map Elem.bare ++ .paren [dots] :: B.map Elem.bare))
    {x y : Tensor α} {ps : List (List Nat)} (h : pack ops [x] pat = .ok (y, ps)) : rearrange b so (.one x) q [] = .ok y :=
  pack_one_rearrange hb so ho hn hp hq h

/-- Packing tensors of one shape is `rearrange` of the list with `n A ... B -> A (n ...) B`. -/
theorem C50_pack_list (hb : Modelled E b) (ho : PackModelled ops) {n : Str} (hn : ∀ w ∈ n :: (A ++ B), IsName false w)
    (hp : IsPackPattern pat A.length B.length)
    (hq : IsPattern q (.bare n :: A.map Elem.bare ++ .bare dots :: B.map Elem.bare)
      (A.map Elem.bare ++ .paren [n, dots] :: B.map Elem.bare))
    {xs : List (Tensor α)} {s : List Nat} (hs : ∀ x ∈ xs, x.shape = s) {y : Tensor α} {ps : List (List Nat)}
    (h : pack ops xs pat = .ok (y, ps)) : rearrange b so (.many xs) q [] = .ok y :=
  pack_list_rearrange hb so ho hn hp hq hs h

/-- Unpacking one tensor is `rearrange` with `A (C) B -> A C B`, the entries of the packed shape being the sizes of the
axes `C` and the entry -1 (at most one) being left out. -/
theorem C50_unpack_one (hb : Modelled E b) (ho : PackModelled ops) (hn : ∀ w ∈ A ++ C ++ B, IsName false w)
    (hp : IsPackPattern pat A.length B.length)
    (hq : IsPattern q (A.map Elem.bare ++ .paren C :: B.map Elem.bare) ((A ++ C ++ B).map Elem.bare))
    {s : List Int} (hc : s.length = C.length) {N : Nat} {r pre post : List Nat} (hs : Resolves [s] N [r])
    {x : Tensor α} (hx : x.shape = pre ++ N :: post) (ha : pre.length = A.length) (hl : post.length = B.length)
    (h0 : -1 ∈ s → 0 ∉ pre ∧ 0 ∉ post) :
    ∃ z, unpack ops x [s] pat = .ok [z] ∧ rearrange b so (.one x) q (sizesOf C s) = .ok z :=
  unpack_one_rearrange hb so ho hn hp hq hc hs hx ha hl h0

/-- Some of the tensors may be packed first: the packed tensor takes their place in the list and one shape, the length
of its axis, takes the place of their shapes. -/
theorem C50_pack_stages (ho : PackModelled ops) {y w : Tensor α} {us xs vs : List (Tensor α)} {ps rs qs : List (List Nat)}
    (hl : ps.length = us.length) (h : pack ops xs pat = .ok (w, rs)) :
    pack ops (us ++ w :: vs) pat = .ok (y, ps ++ [(rs.map List.prod).sum] :: qs) ↔
      pack ops (us ++ xs ++ vs) pat = .ok (y, ps ++ rs ++ qs) := pack_segment ho hl h

/-- Unpacking may be done in stages: first a piece that holds several tensors, then this piece. -/
theorem C50_unpack_stages (ho : PackModelled ops) {x : Tensor α} {pre post : List Nat} {N : Nat}
    (hp : IsPackPattern pat pre.length post.length) (hx : x.shape = pre ++ N :: post) {ps rs qs : List (List Nat)}
    (hN : ((ps ++ rs ++ qs).map List.prod).sum = N) :
    ∃ us xs vs w, us.length = ps.length ∧ vs.length = qs.length ∧
      unpack ops x ((ps ++ [(rs.map List.prod).sum] :: qs).map fun r => r.map Int.ofNat) pat = .ok (us ++ w :: vs) ∧
      unpack ops w (rs.map fun r => r.map Int.ofNat) pat = .ok xs ∧
      unpack ops x ((ps ++ rs ++ qs).map fun r => r.map Int.ofNat) pat = .ok (us ++ xs ++ vs) :=
  unpack_segment ho hp hx hN

/-- Packing one tensor that has exactly one dimension at the star returns this tensor. -/
theorem C50_pack_identity (ho : PackModelled ops) {x y : Tensor α} {n : Nat} (h : pack ops [x] pat = .ok (y, [[n]])) :
    y = x := pack_single ho h

end

section
variable {α β : Type u} [PyUnicode] {ops : PackOps α} {ops' : PackOps β} {pat : Str}

/-- Functions of the elements may be applied before or after; also the exceptions are the same. -/
theorem C50_elementwise (h : SamePack ops ops') (f : α → β) :
    (∀ xs, pack ops' (xs.map (Tensor.map f)) pat = (pack ops xs pat).map (fun p => (p.1.map f, p.2))) ∧
    (∀ x ps, unpack ops' (x.map f) ps pat = (unpack ops x ps pat).map (List.map (Tensor.map f))) :=
  ⟨fun xs => pack_elem h f xs pat, fun x ps => unpack_elem h f x ps pat⟩

end

section
attribute [local instance] asciiUnicode

def a222 : Tensor Int := ⟨[2, 2, 2], [0, 1, 2, 3, 4, 5, 6, 7], rfl⟩
def a22 : Tensor Int := ⟨[2, 2], [10, 11, 12, 13], rfl⟩
def a2 : Tensor Int := ⟨[2], [20, 21], rfl⟩

-- one tensor
example : pack numpyPack [a222] "i *".toList = .ok (⟨[2, 4], [0, 1, 2, 3, 4, 5, 6, 7], rfl⟩, [[2, 2]]) := by rfl
example : rearrange (numpyBackend intOps true) idOrder (.one a222) "i ... -> i (...)".toList [] =
    .ok ⟨[2, 4], [0, 1, 2, 3, 4, 5, 6, 7], rfl⟩ := by rfl
example : IsPattern "i ... -> i (...)".toList (["i".toList].map Elem.bare ++ .bare dots :: [].map Elem.bare)
    (["i".toList].map Elem.bare ++ .paren [dots] :: [].map Elem.bare) :=
  ⟨"i ... ".toList, " i (...)".toList, by decide, isSide_of (by decide) (by decide) (by decide) (by decide),
    isSide_of (by decide) (by decide) (by decide) (by decide)⟩

-- a list
example : pack strictPack [a22, a22] "* i".toList = .ok (⟨[4, 2], [10, 11, 12, 13, 10, 11, 12, 13], rfl⟩, [[2], [2]]) := by rfl
example : rearrange (torchBackend intOps true) idOrder (.many [a22, a22]) "n ... i -> (n ...) i".toList [] =
    .ok ⟨[4, 2], [10, 11, 12, 13, 10, 11, 12, 13], rfl⟩ := by rfl
-- here the order of the elements matters
example : pack strictPack [a22, a22] "i *".toList = .ok (⟨[2, 4], [10, 11, 10, 11, 12, 13, 12, 13], rfl⟩, [[2], [2]]) := by rfl
example : rearrange (torchBackend intOps true) idOrder (.many [a22, a22]) "n i ... -> i (n ...)".toList [] =
    .ok ⟨[2, 4], [10, 11, 10, 11, 12, 13, 12, 13], rfl⟩ := by rfl

-- unpack one tensor, one size unknown
example : unpack numpyPack (vec 6) [[-1, 2]] "*".toList = .ok [⟨[3, 2], [0, 1, 2, 3, 4, 5], rfl⟩] := by rfl
example : rearrange (numpyBackend intOps true) idOrder (.one (vec 6)) "(a b) -> a b".toList
    (sizesOf ["a".toList, "b".toList] [-1, 2]) = .ok ⟨[3, 2], [0, 1, 2, 3, 4, 5], rfl⟩ := by rfl
example : sizesOf ["a".toList, "b".toList] [-1, 2] = [kwInt "b" 2] := by rfl

-- in stages
example : pack numpyPack [a22, a2] "i *".toList = .ok (⟨[2, 3], [10, 11, 20, 12, 13, 21], rfl⟩, [[2], []]) := by rfl
example : pack numpyPack [a222, a22, a2] "i *".toList =
    .ok (⟨[2, 7], [0, 1, 2, 3, 10, 11, 20, 4, 5, 6, 7, 12, 13, 21], rfl⟩, [[2, 2], [2], []]) := by rfl
example : pack numpyPack [a222, ⟨[2, 3], [10, 11, 20, 12, 13, 21], rfl⟩] "i *".toList =
    .ok (⟨[2, 7], [0, 1, 2, 3, 10, 11, 20, 4, 5, 6, 7, 12, 13, 21], rfl⟩, [[2, 2], [3]]) := by rfl
example : unpack numpyPack (vec 7) [[2, 2], [3]] "*".toList =
    .ok [⟨[2, 2], [0, 1, 2, 3], rfl⟩, ⟨[3], [4, 5, 6], rfl⟩] := by rfl
example : unpack numpyPack (vec 7) [[2, 2], [2], []] "*".toList =
    .ok [⟨[2, 2], [0, 1, 2, 3], rfl⟩, ⟨[2], [4, 5], rfl⟩, ⟨[], [6], rfl⟩] := by rfl

-- one dimension at the star
example : pack strictPack [a22] "i *".toList = .ok (a22, [[2]]) := by rfl

-- elementwise, also for a call that fails
example : pack numpyPack ([a22, a2].map (Tensor.map (fun v => v * v))) "i *".toList =
    .ok (⟨[2, 3], [100, 121, 400, 144, 169, 441], rfl⟩, [[2], []]) := by rfl
example : unpack numpyPack ((vec 7).map (fun v => v * v)) [[2, 2], [2]] "*".toList = .error .runtime := by rfl

end

end Einops
