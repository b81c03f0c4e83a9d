import Verif.Packing
import Verif.PatternSpec

/-!
# What `pack` and `unpack` mean

Stated with shapes and entries only.
-/

namespace Einops

universe u

/-- the frameworks modelled for `pack` and `unpack` -/
inductive PackModelled {α : Type u} : PackOps α → Prop
  | numpy : PackModelled numpyPack
  | strict : PackModelled strictPack

/-- The words of a text, separated by white space. -/
inductive Words [PyUnicode] : Str → List Str → Prop
  | nil : Words [] []
  | space {c : Char} {s : Str} {ws : List Str} : PyUnicode.isSpace c = true → Words s ws → Words (c :: s) ws
  | last {w : Str} : w ≠ [] → (∀ c ∈ w, PyUnicode.isSpace c = false) → Words w [w]
  | word {w : Str} {c : Char} {s : Str} {ws : List Str} : w ≠ [] → (∀ c ∈ w, PyUnicode.isSpace c = false) →
      PyUnicode.isSpace c = true → Words s ws → Words (w ++ c :: s) (w :: ws)

/-- A name in a pattern of `pack`. -/
def IsPackName [PyUnicode] (w : Str) : Prop := IsIdentifier w ∧ w.head? ≠ some '_' ∧ w.getLast? ≠ some '_'

/-- A pattern of `pack`: distinct names separated by white space with one `*` among them; `before` names before the
star and `after` names after it. -/
def IsPackPattern [PyUnicode] (pattern : Str) (before after : Nat) : Prop :=
  ∃ A B, Words pattern (A ++ ['*'] :: B) ∧ A.length = before ∧ B.length = after ∧ (A ++ B).Nodup ∧
    ∀ w ∈ A ++ B, IsPackName w

/-- `y` consists of the tensors `xs` one after the other along the axis after `pre`: the k-th one has shape
`pre ++ r ++ post`, and its entry at `(i, s, j)` is the entry of `y` at `(i, offset of k + C-order position of s, j)`. -/
structure Packs {α : Type u} (pre post : List Nat) (xs : List (Tensor α)) (rs : List (List Nat)) (y : Tensor α) : Prop where
  count : rs.length = xs.length
  part : ∀ (k : Nat) (x : Tensor α) (r : List Nat), xs[k]? = some x → rs[k]? = some r → x.shape = pre ++ r ++ post
  whole : y.shape = pre ++ (rs.map List.prod).sum :: post
  entry : ∀ (k : Nat) (x : Tensor α) (r : List Nat), xs[k]? = some x → rs[k]? = some r → ∀ i s j, inBounds i pre = true →
    inBounds s r = true → inBounds j post = true →
      y.at? (i ++ (((rs.map List.prod).take k).sum + ravel r s) :: j) = x.at? (i ++ s ++ j)

/-- `t` is the shape `s` with a length in the place of -1 -/
def Fills (s : List Int) (t : List Nat) : Prop := List.Forall₂ (fun d n => d = ((n : Nat) : Int) ∨ d = -1) s t

/-- `rs` are the packed shapes `ps` with a length in the place of the -1 (at most one, in a shape without zeros), and the
products add up to `N`. -/
structure Resolves (ps : List (List Int)) (N : Nat) (rs : List (List Nat)) : Prop where
  fills : List.Forall₂ Fills ps rs
  one : ps.flatten.count (-1) ≤ 1
  nonzero : ∀ s ∈ ps, -1 ∈ s → (0 : Int) ∉ s
  total : (rs.map List.prod).sum = N

/-- the length taken by the shapes without -1 -/
def knownTotal (ps : List (List Int)) : Int := ((ps.filter (fun s => decide (-1 ∉ s))).map List.prod).sum

/-- `y` is the part of `x` that starts at position `o` of the axis after `pre`, in the shape `r` -/
structure IsPiece {α : Type u} (pre post : List Nat) (x : Tensor α) (o : Nat) (r : List Nat) (y : Tensor α) : Prop where
  shape : y.shape = pre ++ r ++ post
  entry : ∀ i s j, inBounds i pre = true → inBounds s r = true → inBounds j post = true →
    y.at? (i ++ s ++ j) = x.at? (i ++ (o + ravel r s) :: j)

/-- consecutive pieces of these shapes, with the positions where they start, the first one at `o` -/
def starts : Nat → List (List Nat) → List (Nat × List Nat)
  | _, [] => []
  | o, r :: rs => (o, r) :: starts (o + r.prod) rs

/-- the length that the shapes take together -/
def total (rs : List (List Nat)) : Nat := (rs.map List.prod).sum

/-- Where `unpack` cuts an axis of length `N` for the packed shapes `ps`.  No shapes: nothing is cut off.  All lengths
known: consecutive pieces that fill the axis.  One unknown length: the shapes before it are cut off from the front, the
shapes after it from the end, each of the two fits on its own, and the unknown length is what remains between them (zero
if they overlap). -/
inductive Cuts (N : Nat) : List (List Int) → List (Nat × List Nat) → Prop
  | nothing : Cuts N [] []
  | known {ps : List (List Int)} {rs : List (List Nat)} : ps ≠ [] → -1 ∉ ps.flatten → List.Forall₂ Fills ps rs →
      total rs = N → Cuts N ps (starts 0 rs)
  | unknown {A B : List (List Int)} {u : List Int} {a b : List (List Nat)} {t : List Nat} : -1 ∉ A.flatten → -1 ∉ B.flatten →
      List.Forall₂ Fills A a → Fills u t → List.Forall₂ Fills B b → u.count (-1) = 1 → (0 : Int) ∉ u → total a ≤ N →
      total b ≤ N → t.prod = N - total a - total b →
      Cuts N (A ++ u :: B) (starts 0 a ++ (total a, t) :: starts (N - total b) b)

/-- the entries of a packed shape that are not -1, as keyword sizes of the axes `C` -/
def sizesOf (C : List Str) (s : List Int) : List (Str × Size) :=
  ((C.zip s).filter fun p => decide (p.2 ≠ -1)).map fun p => (p.1, ⟨p.2, true⟩)

/-- the same framework for two types of elements -/
inductive SamePack {α β : Type u} : PackOps α → PackOps β → Prop
  | numpy : SamePack numpyPack numpyPack
  | strict : SamePack strictPack strictPack

end Einops
