import Verif.Messages
import Verif.ErrorSpec

/-!
# What the messages of `EinopsError` claim (specification)

Each message is given a meaning: a statement about the pattern, the keywords and the shape of the call, in terms of the
description of patterns (`PatternSpec`, `Spec`), that a reader of the message would take it to make.
-/

namespace Einops

/-- What a side looks like to the reader of a message: an ellipsis is written as one character. -/
def Shown (s t : Str) : Prop :=
  ('.' ∉ s ∧ t = s) ∨ ∃ a b, s = a ++ dots ++ b ∧ '.' ∉ a ∧ '.' ∉ b ∧ t = a ++ ellipsisStr ++ b

/-- `w` is a word of `t`, standing after `a` and before `b`. -/
def WordAt (t a w b : Str) : Prop :=
  t = a ++ w ++ b ∧ w ≠ [] ∧ (∀ c ∈ w, ¬ isSep c) ∧ (∀ c ∈ a.getLast?, isSep c) ∧ (∀ c ∈ b.head?, isSep c)

section
variable [PyUnicode]

/-- The meaning of a message about a side that looks like `t`. -/
def SideMessage.SaysShown (allowUnderscore allowDuplicates : Bool) (t : Str) : SideMessage → Prop
  | .dotsOutside => False
  | .secondEllipsis => False
  -- the word is there in two places (and is no number)
  | .duplicate x => allowDuplicates = false ∧ ¬ (allowUnderscore = true ∧ x = ['_']) ∧ ¬ IsNumber x ∧
      ∃ a b a' b', WordAt t a x b ∧ WordAt t a' x b' ∧ a.length < a'.length
  -- the word is there, and is not a name for the reason given
  | .invalid x r => (∃ a b, WordAt t a x b) ∧ ¬ IsNumber x ∧ x ≠ ellipsisStr ∧
      match r with
      | .notIdentifier => ¬ IsIdentifier x
      | .underscore => IsIdentifier x ∧ (x.head? = some '_' ∨ x.getLast? = some '_') ∧ ¬ (allowUnderscore = true ∧ x = ['_'])
  -- never said
  | .lengthOne => False
  -- the number 0 is one of the words
  | .notPositive v => v = 0 ∧ ∃ a w b, WordAt t a w b ∧ IsNumber w ∧ decimalValue w = 0
  -- a parenthesis is opened twice without being closed between
  | .nested => ∃ a b c, t = a ++ ['('] ++ b ++ ['('] ++ c ∧ ')' ∉ b
  -- a parenthesis is closed after equally many have been opened and closed
  | .unbalanced => ∃ a b, t = a ++ [')'] ++ b ∧ a.count '(' = a.count ')'
  -- the character is there and may not be
  | .unknownChar c => c ∈ t ∧ ¬ isSep c ∧ PyUnicode.isAlnum c = false ∧ c ≠ '_' ∧ c ≠ '…'
  -- this is the side, and its last parenthesis is not closed
  | .imbalanced e => e = t ∧ ∃ a b, t = a ++ ['('] ++ b ∧ ')' ∉ b

/-- The meaning of a message about the side `s`. -/
def SideMessage.Says (allowUnderscore allowDuplicates : Bool) (s : Str) : SideMessage → Prop
  -- there are dots, but no three in a row
  | .dotsOutside => '.' ∈ s ∧ ¬ dots <:+: s
  -- there is an ellipsis and a dot besides
  | .secondEllipsis => dots <:+: s ∧ ¬ ∃ a b, s = a ++ dots ++ b ∧ '.' ∉ a ∧ '.' ∉ b
  | m => ∃ t, Shown s t ∧ m.SaysShown allowUnderscore allowDuplicates t

/-- `A` lists, without repetition, the axes with the property `P`, and there are some. -/
def Lists (A : List Axis) (P : Axis → Prop) : Prop := A ≠ [] ∧ A.Nodup ∧ ∀ a, a ∈ A ↔ P a

/-- the axes named on a side, the ellipsis counting as one -/
def sideAxes (side : Nat) (G : List Elem) : List Axis := wordsAxes side 0 (sideWords G)

/-- a word that Python accepts as a keyword but einops does not accept as a name -/
def BadName (n : Str) : Prop := ¬ IsIdentifier n ∨ n.head? = some '_' ∨ n.getLast? = some '_'

/-- `g`, the group of dimension number `k`, is the first one that does not agree with the shape; the length of the dimension
is `l` and the product of the given lengths is `p`. -/
def BadDim (kw : List (Str × Size)) (L : List (List Axis)) (shape : List Nat) (g : List Axis) (l p : Int) : Prop :=
  ∃ (k d : Nat), L[k]? = some g ∧ shape[k]? = some d ∧ l = d ∧ GivenProduct kw g p ∧
    ∀ j < k, ∀ g' d', L[j]? = some g' → shape[j]? = some d' → Agrees kw g' d'

/-- The meaning of a message about a call with the two sides `GL` and `GR`.  A message about a keyword is about the first one
that is not used, a message about a group is about the first one that is in the way. -/
def Message.SaysOf (op : OpKind) (pattern : Str) (kw : List (Str × Size)) (shape : List Nat) (GL GR : List Elem) :
    Message → Prop
  | .side _ => False
  | .ellipsisRight p => p = pattern ∧ dots ∈ sideWords GR ∧ dots ∉ sideWords GL
  | .ellipsisParen p => p = pattern ∧ (∃ ws, Elem.paren ws ∈ GL ∧ dots ∈ ws)
  | .nonUnitary => op = .name "rearrange".toList ∧ EllipsisOK GL GR ∧
      ∃ w ∈ sideWords GL ++ sideWords GR, IsNumber w ∧ decimalValue w ≠ 1
  | .oneSide A => op = .name "rearrange".toList ∧ EllipsisOK GL GR ∧ OnlyUnits GL ∧ OnlyUnits GR ∧
      Lists A (fun a => (a ∈ sideAxes 0 GL ∧ a ∉ sideAxes 1 GR) ∨ (a ∈ sideAxes 1 GR ∧ a ∉ sideAxes 0 GL))
  | .leftOfRepeat A => op = .name "repeat".toList ∧ EllipsisOK GL GR ∧
      Lists A (fun a => a ∈ sideAxes 0 GL ∧ a ∉ sideAxes 1 GR)
  | .withoutSize A => op = .name "repeat".toList ∧ EllipsisOK GL GR ∧ NamesWithin GL GR ∧ OnlyUnits GL ∧
      Lists A (fun a => ∃ w ∈ sideWords GR, ¬ IsNumber w ∧ w ∉ sideWords GL ∧ w ∉ kw.map Prod.fst ∧ a = .str w)
  | .rightOfReduce o A => o = op ∧ (op = .callable ∨ ∃ s ∈ builtins, op = .name s) ∧ EllipsisOK GL GR ∧
      Lists A (fun a => a ∈ sideAxes 1 GR ∧ a ∉ sideAxes 0 GL)
  | .unknownReduction o => o = op ∧ EllipsisOK GL GR ∧
      ∃ s, op = .name s ∧ s ∉ builtins ∧ s ≠ "rearrange".toList ∧ s ≠ "repeat".toList
  | .tooFewDims n k => SidesOK op GL GR (kw.map Prod.fst) ∧ dots ∈ sideWords GL ∧ GL.length = n + 1 ∧ k = shape.length ∧ k < n
  | .wrongDims n k => SidesOK op GL GR (kw.map Prod.fst) ∧ dots ∉ sideWords GL ∧ GL.length = n ∧ k = shape.length ∧ k ≠ n
  | .invalidName n => SidesOK op GL GR (kw.map Prod.fst) ∧ (∃ L R, Groups GL GR shape.length L R) ∧
      (∃ before after, kw.map Prod.fst = before ++ n :: after ∧ KeywordsUsed GL GR before) ∧ BadName n
  | .unused n => SidesOK op GL GR (kw.map Prod.fst) ∧ (∃ L R, Groups GL GR shape.length L R) ∧
      (∃ before after, kw.map Prod.fst = before ++ n :: after ∧ KeywordsUsed GL GR before) ∧
      ¬ BadName n ∧ n ∉ sideWords GL ∧ n ∉ sideWords GR
  | .cannotInfer A => SidesOK op GL GR (kw.map Prod.fst) ∧ KeywordsUsed GL GR (kw.map Prod.fst) ∧
      2 ≤ A.length ∧
      (∃ L R before g after, Groups GL GR shape.length L R ∧ L = before ++ g :: after ∧ OneUnknown before (kw.map Prod.fst) ∧
        Lists A (fun a => a ∈ g ∧ isKnown (kw.map Prod.fst) a = false)) ∧
      ∃ ws, Elem.paren ws ∈ GL ∧ Lists A (fun a => ∃ w ∈ ws, ¬ IsNumber w ∧ w ∉ kw.map Prod.fst ∧ a = .str w)
  | .mismatch l p => ∃ L R g, Prepared op GL GR (kw.map Prod.fst) shape.length L R ∧ BadDim kw L shape g l p ∧
      (∀ a ∈ g, isKnown (kw.map Prod.fst) a = true) ∧ l ≠ p
  | .notDivisible l p => ∃ L R g, Prepared op GL GR (kw.map Prod.fst) shape.length L R ∧ BadDim kw L shape g l p ∧
      (∃ a ∈ g, isKnown (kw.map Prod.fst) a = false) ∧ p ≠ 0 ∧ ¬ p ∣ l

/-- The meaning of a message. -/
def Message.Says (op : OpKind) (pattern : Str) (kw : List (Str × Size)) (shape : List Nat) : Message → Prop
  | .side m => ∃ l r, pattern = l ++ ['-', '>'] ++ r ∧ ¬ ['-', '>'] <:+: l ∧ ¬ ['-', '>'] <:+: r ∧
      (m.Says false false l ∨ ((∃ G, IsSide false false l G) ∧ m.Says false false r))
  | m => ∃ GL GR, IsPattern pattern GL GR ∧ m.SaysOf op pattern kw shape GL GR

/-- The same message, but for the order in which the axes are listed. -/
inductive Message.Same : Message → Message → Prop
  | refl (m : Message) : Same m m
  | oneSide {A B : List Axis} : A.Perm B → Same (.oneSide A) (.oneSide B)
  | leftOfRepeat {A B : List Axis} : A.Perm B → Same (.leftOfRepeat A) (.leftOfRepeat B)
  | withoutSize {A B : List Axis} : A.Perm B → Same (.withoutSize A) (.withoutSize B)
  | rightOfReduce {op : OpKind} {A B : List Axis} : A.Perm B → Same (.rightOfReduce op A) (.rightOfReduce op B)
  | cannotInfer {A B : List Axis} : A.Perm B → Same (.cannotInfer A) (.cannotInfer B)

end

end Einops
