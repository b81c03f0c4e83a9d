import Verif.OtherMessages
import Verif.MessageSpec
import Verif.OtherErrors
import Verif.Rewriting

/-!
# What the messages of `pack`, `unpack`, `parse_shape` and `einsum` claim (specification)
-/

namespace Einops

section
variable [PyUnicode]

/-- The words of an element other than the number 1 -/
def Elem.others (e : Elem) : List Str := e.words.filter (fun w => decide (¬ (IsNumber w ∧ decimalValue w = 1)))

/-! ### `pack` and `unpack` -/

/-- The meaning of a message about the pattern alone, by its words. -/
def PackMessage.SaysPattern (ws : List Str) : PackMessage → Prop
  -- a word is there twice
  | .duplicates => ∃ A w B C, ws = A ++ w :: B ++ w :: C
  -- no word is the star
  | .noStar => ws.Nodup ∧ ['*'] ∉ ws
  -- the first word other than the star that is not a name
  | .invalid a => ws.Nodup ∧ ['*'] ∈ ws ∧ ∃ A B, ws = A ++ a :: B ∧ a ≠ ['*'] ∧ ¬ IsPackName a ∧
      ∀ w ∈ A, w = ['*'] ∨ IsPackName w
  | _ => False

/-- The meaning of a message of `pack` about tensors of these shapes. -/
def PackMessage.SaysPack (pattern : Str) (shapes : List (List Nat)) : PackMessage → Prop
  -- tensor number `i`, counted from 0, has this shape, with fewer dimensions than names in the pattern; the tensors before it
  -- have enough
  | .tooFewAxes i s n => ∃ before after, IsPackPattern pattern before after ∧ n = before + after ∧
      shapes[i]? = some s ∧ s.length < n ∧ ∀ j < i, ∀ s', shapes[j]? = some s' → n ≤ s'.length
  | m => ∃ ws, Words pattern ws ∧ m.SaysPattern ws

/-- The meaning of a message of `unpack` about a tensor of this shape. -/
def PackMessage.SaysUnpack (pattern : Str) (shape : List Nat) (ps : List (List Int)) : PackMessage → Prop
  -- this is the shape, and its dimensions are not as many as the words of the pattern
  | .wrongDim s => s = shape ∧ ∃ before after, IsPackPattern pattern before after ∧ shape.length ≠ before + 1 + after
  -- these are the packed shapes, and at least two of them have a -1
  | .moreThanOne qs => qs = ps ∧ (∃ before after, IsPackPattern pattern before after ∧ shape.length = before + 1 + after) ∧
      ∃ A s B t C, ps = A ++ s :: B ++ t :: C ∧ -1 ∈ s ∧ -1 ∈ t
  -- these are the packed shapes and this is the length of the axis at the star, and the shapes cannot be completed such that
  -- their sizes add up to that length
  | .couldNotSplit n qs => qs = ps ∧ ∃ (pre post : List Nat) (N : Nat),
      IsPackPattern pattern pre.length post.length ∧ shape = pre ++ N :: post ∧ n = N ∧ ¬ ∃ rs, Resolves ps N rs
  | m => ∃ ws, Words pattern ws ∧ m.SaysPattern ws

/-! ### `parse_shape` -/

/-- Element by element, lengths agree with what is written: a unit has length 1, a number its own value, a name or `_` any
length, the ellipsis stands for any number of dimensions. -/
inductive Matches : List Elem → List Nat → Prop
  | nil : Matches [] []
  | word {e w G n s} : e.others = [w] → w ≠ dots → ¬ IsNumber w → Matches G s → Matches (e :: G) (n :: s)
  | unit {e G s} : e.others = [] → Matches G s → Matches (e :: G) (1 :: s)
  | number {e w G s} : e.others = [w] → IsNumber w → Matches G s → Matches (e :: G) (decimalValue w :: s)
  | ellipsis {ds G s} : Matches G s → Matches (.bare dots :: G) (ds ++ s)

/-- `e` stands for a dimension of length `n`, and all before it agrees. -/
def StandsAt (G : List Elem) (shape : List Nat) (e : Elem) (n : Nat) : Prop :=
  ∃ A B s₁ s₂, G = A ++ e :: B ∧ shape = s₁ ++ n :: s₂ ∧ Matches A s₁ ∧
    if dots ∈ sideWords B then B.length ≤ s₂.length + 1 else s₂.length = B.length

/-- The meaning of a message about a well formed pattern of `parse_shape`. -/
def ShapeMessage.SaysOf (shape : List Nat) (G : List Elem) : ShapeMessage → Prop
  | .side _ => False
  -- an element consists of several axes
  | .composite => ∃ e ∈ G, 2 ≤ e.others.length
  -- there is an ellipsis, and the elements besides are more than the dimensions
  | .thisNumber => dots ∈ sideWords G ∧ shape.length + 1 < G.length
  -- there is no ellipsis, and there are not as many elements as dimensions
  | .differentNumber => dots ∉ sideWords G ∧ shape.length ≠ G.length
  -- an element without axes stands for a dimension of another length than 1
  | .notOne => ∃ e n, StandsAt G shape e n ∧ e.others = [] ∧ n ≠ 1
  -- a number stands for a dimension of another length
  | .anonymous => ∃ e n w, StandsAt G shape e n ∧ e.others = [w] ∧ IsNumber w ∧ decimalValue w ≠ n

/-- The meaning of a message of `parse_shape`. -/
def ShapeMessage.Says (pattern : Str) (shape : List Nat) : ShapeMessage → Prop
  | .side m => m.Says true false pattern
  | m => ∃ G, IsSide true false pattern G ∧ m.SaysOf shape G

/-! ### `einsum` -/

/-- why an element means nothing in `einsum` -/
inductive ElemMessage (e : Elem) : EinsumMessage → Prop
  -- it has no axes
  | singleton : e.others = [] → ElemMessage e .singleton
  -- it has several axes
  | rearrangement : 2 ≤ e.others.length → ElemMessage e .rearrangement
  -- its only axis is a number
  | anonymous (w : Str) : e.others = [w] → IsNumber w → ElemMessage e .anonymous

/-- What is wrong with the elements of the inputs (`A`, one input after the other) and of the output `B`: the first trouble
in reading order (as in `EinsumTrouble`), and the message that reports it. -/
inductive EinsumTold (A B : List Elem) : EinsumMessage → Prop
  | input (A₁ : List Elem) (e : Elem) (A₂ : List Elem) (t : List ESym) (m : EinsumMessage) : A = A₁ ++ e :: A₂ →
      A₁.map readElem = t.map some → distinct (symNames t) ≤ 52 → ElemMessage e m → EinsumTold A B m
  | letters (A₁ A₂ : List Elem) (t : List ESym) : A = A₁ ++ A₂ → A₁.map readElem = t.map some →
      52 < distinct (symNames t) → EinsumTold A B .tooMany
  | output (t u : List ESym) (B₁ : List Elem) (e : Elem) (B₂ : List Elem) (m : EinsumMessage) : A.map readElem = t.map some →
      distinct (symNames t) ≤ 52 → B = B₁ ++ e :: B₂ → B₁.map readElem = u.map some →
      (∀ w ∈ symNames u, w ∈ symNames t) → ElemMessage e m → EinsumTold A B m
  | unknown (t u : List ESym) (B₁ : List Elem) (e : Elem) (B₂ : List Elem) (w : Str) : A.map readElem = t.map some →
      distinct (symNames t) ≤ 52 → B = B₁ ++ e :: B₂ → B₁.map readElem = u.map some →
      (∀ w ∈ symNames u, w ∈ symNames t) → readElem e = some (.name w) → w ∉ symNames t → EinsumTold A B (.unknownAxis w)

/-- The meaning of a message about a pattern of `einsum`. -/
def EinsumMessage.Says (pattern : Str) : EinsumMessage → Prop
  | .atLeastTwo => False
  | .lastString => False
  | .noArrow => ¬ ['-', '>'] <:+: pattern
  -- there is one arrow, and an input is not a side for the reason given, or all inputs are sides and the output is not
  | .side m => ∃ parts r, pattern = List.intercalate [','] parts ++ ['-', '>'] ++ r ∧ (∀ p ∈ parts, ',' ∉ p) ∧
      ¬ ['-', '>'] <:+: List.intercalate [','] parts ∧ ¬ ['-', '>'] <:+: r ∧
      ((∃ P p Q Gs, parts = P ++ p :: Q ∧ List.Forall₂ (IsSide true true) P Gs ∧ m.Says true true p) ∨
        ∃ Gs, List.Forall₂ (IsSide true true) parts Gs ∧ m.Says true false r)
  -- never said
  | .emptyName => False
  | m => ∃ Gs G, EinsumSides pattern Gs G ∧ EinsumTold Gs.flatten G m

end

end Einops
