import Verif.Proofs.Backends
import Mathlib.Data.Rat.Defs
import Mathlib.Algebra.Order.Ring.Rat
import Mathlib.Algebra.Field.Rat
import Mathlib.Tactic.FieldSimp

/-!
# Concrete data for the examples beside the property theorems

The exact reductions on rational numbers show that the assumptions on reductions can be met.
-/

namespace Einops

/-- sets iterate in insertion order -/
def idOrder : SetOrder := ⟨fun _ l => l, fun _ _ => List.Perm.refl _⟩

/-- sets iterate in reverse insertion order -/
def revOrder : SetOrder := ⟨fun _ l => l.reverse, fun _ l => List.reverse_perm l⟩

/-- fold of a non-empty list; frameworks refuse to take the minimum of nothing -/
def foldNonempty {α : Type} (f : α → α → α) : List α → Py α
  | [] => .error .backend
  | v :: vs => .ok (vs.foldl f v)

/-- the seven reductions on rational numbers, exactly -/
def ratOps : ElemOps ℚ where
  op o vs :=
    if o = "sum".toList then .ok vs.sum
    else if o = "prod".toList then .ok vs.prod
    else if o = "min".toList then foldNonempty min vs
    else if o = "max".toList then foldNonempty max vs
    else if o = "any".toList then .ok (if vs.any (fun v => decide (v ≠ 0)) then 1 else 0)
    else if o = "all".toList then .ok (if vs.all (fun v => decide (v ≠ 0)) then 1 else 0)
    else if o = "mean".toList then (if vs = [] then .error .backend else .ok (vs.sum / vs.length))
    else .error .backend

theorem mapE_total {β γ : Type} (f : β → γ) (l : List β) : mapE (fun v => (Except.ok (f v) : Py γ)) l = .ok (l.map f) := by
  induction l with
  | nil => rfl
  | cons v l ih => simp [mapE, ih]

theorem foldLaw_total {α : Type} {f : List α → α} (h : ∀ vss : List (List α), f (vss.map f) = f vss.flatten) :
    FoldLaw (fun vs => (Except.ok (f vs) : Py α)) where
  stages vss n _ := by rw [mapE_total]; simp only [Except.bind]; rw [h]
  error vs e h := by cases h

theorem foldl_assoc {α : Type} {f : α → α → α} (ha : ∀ a b c, f (f a b) c = f a (f b c)) (a b : α) (l : List α) :
    l.foldl f (f a b) = f a (l.foldl f b) := by
  induction l generalizing b with
  | nil => rfl
  | cons c l ih => simp only [List.foldl_cons]; rw [ha, ih]

theorem foldNonempty_append {α : Type} {f : α → α → α} (ha : ∀ a b c, f (f a b) c = f a (f b c)) {l m : List α} {u v : α}
    (hl : foldNonempty f l = .ok u) (hm : foldNonempty f m = .ok v) : foldNonempty f (l ++ m) = .ok (f u v) := by
  cases l with
  | nil => cases hl
  | cons a l =>
    cases m with
    | nil => cases hm
    | cons b m =>
      simp only [foldNonempty, Except.ok.injEq] at hl hm
      simp only [foldNonempty, List.cons_append, List.foldl_append, List.foldl_cons]
      rw [hl, ← hm, foldl_assoc ha]

theorem foldNonempty_law {α : Type} {f : α → α → α} (ha : ∀ a b c, f (f a b) c = f a (f b c)) :
    FoldLaw (foldNonempty f) where
  error vs e h := by
    cases vs with
    | nil => cases h; rfl
    | cons => cases h
  stages vss n hn := by
    cases n with
    | zero =>
      have h1 : vss.flatten = [] := by
        rw [List.flatten_eq_nil_iff]
        intro l hl
        exact List.length_eq_zero_iff.1 (hn l hl)
      rw [h1]
      cases vss with
      | nil => rfl
      | cons vs vss =>
        have : vs = [] := List.length_eq_zero_iff.1 (hn vs (by simp))
        subst this
        rfl
    | succ n =>
      induction vss with
      | nil => rfl
      | cons vs vss ih =>
        obtain ⟨v, ws, rfl⟩ : ∃ v ws, vs = v :: ws := by
          cases vs with
          | nil => have := hn [] (by simp); simp at this
          | cons v ws => exact ⟨v, ws, rfl⟩
        have ih := ih (fun l hl => hn l (by simp [hl]))
        cases vss with
        | nil => simp [mapE, foldNonempty, Except.bind]
        | cons us vss =>
          obtain ⟨u, us', rfl⟩ : ∃ v ws, us = v :: ws := by
            cases us with
            | nil => have := hn [] (by simp); simp at this
            | cons v ws => exact ⟨v, ws, rfl⟩
          simp only [mapE, foldNonempty] at ih ⊢
          rcases hm : mapE (foldNonempty f) vss with e | zs
          · rw [hm] at ih; simp [Except.bind, foldNonempty] at ih
          · rw [hm] at ih
            simp only [Except.bind, foldNonempty, List.flatten_cons, List.cons_append, Except.ok.injEq] at ih ⊢
            rw [List.foldl_append, List.foldl_cons, foldl_assoc ha, ih, List.foldl_cons, foldl_assoc ha]

theorem mean_law : FoldLaw (fun vs : List ℚ => if vs = [] then (.error .backend : Py ℚ) else .ok (vs.sum / vs.length)) where
  error vs e h := by
    split at h
    · cases h; rfl
    · cases h
  stages vss n hn := by
    cases n with
    | zero =>
      have h1 : vss.flatten = [] := by
        rw [List.flatten_eq_nil_iff]
        intro l hl
        exact List.length_eq_zero_iff.1 (hn l hl)
      rw [h1]
      cases vss with
      | nil => rfl
      | cons vs vss =>
        have : vs = [] := List.length_eq_zero_iff.1 (hn vs (by simp))
        subst this
        rfl
    | succ n =>
      have key : ∀ vss : List (List ℚ), (∀ vs ∈ vss, vs.length = n + 1) →
          mapE (fun vs : List ℚ => if vs = [] then (.error .backend : Py ℚ) else .ok (vs.sum / vs.length)) vss
            = .ok (vss.map (fun vs => vs.sum / (n + 1))) ∧
          (vss.map (fun vs : List ℚ => vs.sum / ((n : ℚ) + 1))).sum = vss.flatten.sum / (n + 1) ∧
          vss.flatten.length = vss.length * (n + 1) := by
        intro vss hn
        induction vss with
        | nil => simp [mapE]
        | cons vs vss ih =>
          obtain ⟨h1, h2, h3⟩ := ih (fun l hl => hn l (by simp [hl]))
          have hl := hn vs (by simp)
          refine ⟨?_, ?_, ?_⟩
          · simp only [mapE, h1]
            rw [if_neg (by rintro rfl; simp at hl), hl]
            simp
          · simp only [List.map_cons, List.sum_cons, h2, List.flatten_cons, List.sum_append]
            ring
          · simp only [List.flatten_cons, List.length_append, h3, hl, List.length_cons]
            ring
      obtain ⟨h1, h2, h3⟩ := key vss hn
      rw [h1]
      simp only [Except.bind, List.length_map, List.map_eq_nil_iff]
      cases vss with
      | nil => rfl
      | cons vs vss =>
        have hne : (vs :: vss).flatten ≠ [] := by
          intro h
          rw [h] at h3
          simp at h3
        rw [if_neg (by simp), if_neg hne, h2, h3]
        congr 1
        push_cast
        rw [div_div]
        congr 1
        ring

theorem ratOps_law : ∀ o ∈ builtins, FoldLaw (ratOps.op o) := by
  intro o ho
  simp only [builtins, List.mem_cons, List.not_mem_nil, or_false] at ho
  rcases ho with rfl | rfl | rfl | rfl | rfl | rfl | rfl
  · exact foldNonempty_law min_assoc
  · exact foldNonempty_law max_assoc
  · exact foldLaw_total (fun vss => by rw [List.sum_flatten])
  · exact mean_law
  · exact foldLaw_total (fun vss => by rw [List.prod_flatten])
  · refine foldLaw_total (f := fun vs : List ℚ => if vs.any (fun v => decide (v ≠ 0)) then 1 else 0) (fun vss => ?_)
    congr 1
    rw [eq_iff_iff]
    simp
  · refine foldLaw_total (f := fun vs : List ℚ => if vs.all (fun v => decide (v ≠ 0)) then 1 else 0) (fun vss => ?_)
    congr 1
    rw [eq_iff_iff]
    simp only [List.all_eq_true, decide_eq_true_eq, List.mem_map, List.mem_flatten, ne_eq, forall_exists_index, and_imp,
      forall_apply_eq_imp_iff₂, ite_eq_right_iff, one_ne_zero, imp_false, not_not]
    exact ⟨fun h v vs hvs hv => h vs hvs v hv, fun h vs hvs v hv => h v vs hvs hv⟩

/-- integers with exact sum, product, minimum and maximum (enough to compute examples) -/
def intOps : ElemOps ℤ where
  op o vs :=
    if o = "sum".toList then .ok vs.sum
    else if o = "prod".toList then .ok vs.prod
    else if o = "min".toList then foldNonempty min vs
    else if o = "max".toList then foldNonempty max vs
    else .error .backend

/-- a 2 × 3 tensor -/
def t23 : Tensor ℤ := ⟨[2, 3], [0, 1, 2, 3, 4, 5], rfl⟩

/-- a 4 × 3 tensor -/
def t43 : Tensor ℤ := ⟨[4, 3], [0, 1, 2, 3, 4, 5, 6, 7, 8, 9, 10, 11], rfl⟩

/-- a keyword argument that is a Python int -/
def kwInt (n : String) (v : Int) : Str × Size := (n.toList, ⟨v, true⟩)

/-! ### deciding that a concrete string is a legal side -/

/-- end a word -/
def lexEnd (w : Str) (t : List Tok) : List Tok := if w = [] then t else .word w :: t

/-- the tokens of a string; `w` is the word begun -/
def lexGo : Str → Str → List Tok
  | w, [] => lexEnd w []
  | w, c :: s =>
    if c = ' ' then lexEnd w (lexGo [] s)
    else if c = '(' then lexEnd w (.lp :: lexGo [] s)
    else if c = ')' then lexEnd w (.rp :: lexGo [] s)
    else lexGo (w ++ [c]) s

theorem lexEnd_lexes {w s : Str} {t : List Tok} (hw : ∀ c ∈ w, ¬ isSep c) (hs : ∀ c ∈ s.head?, isSep c) (h : Lexes s t) :
    Lexes (w ++ s) (lexEnd w t) := by
  unfold lexEnd
  split
  · rename_i h0; rw [h0]; exact h
  · rename_i h0; exact .word h0 hw hs h

theorem lexGo_lexes {w s : Str} (hw : ∀ c ∈ w, ¬ isSep c) : Lexes (w ++ s) (lexGo w s) := by
  induction s generalizing w with
  | nil => exact lexEnd_lexes hw (by simp) .nil
  | cons c s ih =>
    unfold lexGo
    have ih0 := ih (w := []) (by simp)
    split
    · rename_i hc; subst hc; exact lexEnd_lexes hw (by simp [isSep]) (.space ih0)
    · split
      · rename_i hc; subst hc; exact lexEnd_lexes hw (by simp [isSep]) (.lp ih0)
      · split
        · rename_i hc; subst hc; exact lexEnd_lexes hw (by simp [isSep]) (.rp ih0)
        · rename_i h1 h2 h3
          have := ih (w := w ++ [c]) (by
            intro d hd
            rcases List.mem_append.1 hd with hd | hd
            · exact hw d hd
            · rw [List.mem_singleton] at hd
              subst hd
              simp [isSep, h1, h2, h3])
          simpa using this

/-- a check for concrete sides -/
theorem isSide_of [PyUnicode] {u d : Bool} {s : Str} {G : List Elem} (h1 : lexGo [] s = G.flatMap Elem.toks)
    (h2 : ∀ w ∈ G.flatMap Elem.words, WordOK u w) (h3 : (G.flatMap Elem.words).count dots ≤ 1)
    (h4 : ((G.flatMap Elem.words).filter (unrepeatable u)).Nodup) : IsSide u d s G :=
  ⟨h1 ▸ lexGo_lexes (w := []) (fun _ h => nomatch h), h2, h3, fun _ => h4⟩

end Einops
