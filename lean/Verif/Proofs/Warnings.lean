import Verif.Warnings
import Verif.Proofs.Prepare
import Verif.Proofs.Einsum
import Verif.Proofs.Marker

/-! Which warnings are issued, and what they change. -/

namespace Einops

universe u v

/-! ### Sequences of warnings -/

/-- a computation that issues the warnings `ws` and would end with `r` -/
def cut {α : Type u} (raises : NameWarning → Bool) : List NameWarning → Py α → Warned α
  | [], r => silent r
  | w :: ws, r => if raises w then ([w], .error (.warning w)) else (w :: (cut raises ws r).1, (cut raises ws r).2)

theorem cut_ok_then {α : Type u} {β : Type v} {raises : NameWarning → Bool} {ws ws' : List NameWarning} {a : α}
    {f : α → Warned β} {r : Py β} (h : f a = cut raises ws' r) :
    (cut raises ws (.ok a)).andThen f = cut raises (ws ++ ws') r := by
  induction ws with
  | nil => simp only [cut, silent, Warned.andThen, List.nil_append, h]
  | cons w ws ih =>
    simp only [cut, List.cons_append]
    by_cases hw : raises w = true
    · simp only [hw, if_true, Warned.andThen]
    · simp only [hw, Bool.false_eq_true, if_false]
      rw [← ih]
      unfold Warned.andThen
      rcases cut raises ws (.ok a : Py α) with ⟨l, o⟩
      cases o <;> rfl

theorem cut_err_then {α : Type u} {β : Type v} {raises : NameWarning → Bool} {ws : List NameWarning} {e : PyErr}
    {f : α → Warned β} : (cut raises ws (.error e)).andThen f = cut raises ws (.error e) := by
  induction ws with
  | nil => rfl
  | cons w ws ih =>
    simp only [cut]
    by_cases hw : raises w = true
    · simp only [hw, if_true, Warned.andThen]
    · simp only [hw, Bool.false_eq_true, if_false]
      rw [← ih]
      unfold Warned.andThen
      rcases cut raises ws (.error e : Py α) with ⟨l, o⟩
      cases o <;> rfl

theorem cut_quiet {α : Type u} {raises : NameWarning → Bool} {ws : List NameWarning} (r : Py α)
    (h : ∀ w ∈ ws, raises w = false) : cut raises ws r = (ws, (silent r).2) := by
  induction ws with
  | nil => cases r <;> rfl
  | cons w ws ih =>
    simp only [cut, h w (by simp), Bool.false_eq_true, if_false, ih (fun v hv => h v (by simp [hv]))]

theorem cut_raised {α : Type u} {raises : NameWarning → Bool} {before after : List NameWarning} {w : NameWarning} (r : Py α)
    (h : ∀ v ∈ before, raises v = false) (hw : raises w = true) :
    cut raises (before ++ w :: after) r = (before ++ [w], .error (.warning w)) := by
  induction before with
  | nil => simp only [List.nil_append, cut, hw, if_true]
  | cons v before ih =>
    simp only [List.cons_append, cut, h v (by simp), Bool.false_eq_true, if_false, ih (fun v hv => h v (by simp [hv]))]

theorem heard_cut {α : Type u} (raises : NameWarning → Bool) (ws : List NameWarning) (r : Py α) :
    Heard raises ws r (cut raises ws r) where
  quiet h := by
    rw [cut_quiet r h]
    refine ⟨rfl, ?_, ?_⟩ <;> cases r <;> simp [silent]
  raised before w after e h hw := by rw [e]; exact cut_raised r h hw

theorem cut_prefix {α : Type u} (raises : NameWarning → Bool) (ws : List NameWarning) (r : Py α) :
    (cut raises ws r).1 <+: ws := by
  induction ws with
  | nil => cases r <;> exact List.prefix_refl _
  | cons w ws ih =>
    simp only [cut]
    split
    · exact ⟨ws, rfl⟩
    · exact (List.prefix_cons_inj w).2 ih

/-- `c` is a computation with outcome `r` that issues the warnings `full`, or some of the first of them if it fails. -/
def Tells {α : Type u} (c : (NameWarning → Bool) → Warned α) (r : Py α) (full : List NameWarning) : Prop :=
  ∃ ws, (∀ raises, c raises = cut raises ws r) ∧ ws <+: full ∧ (∀ a, r = .ok a → ws = full)

theorem Tells.silent {α : Type u} (r : Py α) : Tells (fun _ => silent r) r [] :=
  ⟨[], fun _ => rfl, List.prefix_refl _, fun _ _ => rfl⟩

theorem Tells.fails {α : Type u} (e : PyErr) (full : List NameWarning) :
    Tells (fun _ => Einops.silent (.error e : Py α)) (.error e) full :=
  ⟨[], fun _ => rfl, List.nil_prefix, fun _ h => by cases h⟩

theorem Tells.congr {α : Type u} {c c' : (NameWarning → Bool) → Warned α} {r r' : Py α} {full full' : List NameWarning}
    (h : Tells c r full) (hc : ∀ p, c' p = c p) (hr : r' = r) (hf : full' = full) : Tells c' r' full' := by
  obtain ⟨ws, h1, h2, h3⟩ := h
  exact ⟨ws, fun p => by rw [hc, h1, hr], hf ▸ h2, fun a ha => hf ▸ h3 a (hr ▸ ha)⟩

/-- `r`, then `g` -/
def pyThen {α : Type u} {β : Type v} (r : Py α) (g : α → Py β) : Py β :=
  match r with
  | .error e => .error e
  | .ok a => g a

theorem Tells.andThen {α : Type u} {β : Type v} {c : (NameWarning → Bool) → Warned α} {r : Py α} {full full' : List NameWarning}
    {f : (NameWarning → Bool) → α → Warned β} {g : α → Py β} (h : Tells c r full)
    (h' : ∀ a, r = .ok a → Tells (fun p => f p a) (g a) full') :
    Tells (fun p => (c p).andThen (f p)) (pyThen r g) (full ++ full') := by
  obtain ⟨ws, h1, h2, h3⟩ := h
  cases r with
  | error e =>
    exact ⟨ws, fun p => by simp only [h1, cut_err_then, pyThen], h2.trans (List.prefix_append _ _), fun _ h => by cases h⟩
  | ok a =>
    obtain ⟨ws', h4, h5, h6⟩ := h' a rfl
    have hw := h3 a rfl
    subst hw
    exact ⟨ws ++ ws', fun p => by simp only [h1]; exact cut_ok_then (h4 p), (List.prefix_append_right_inj ws).2 h5,
      fun b hb => by rw [h6 b hb]⟩

theorem Tells.longer {α : Type u} {c : (NameWarning → Bool) → Warned α} {e : PyErr} {full : List NameWarning}
    (h : Tells c (.error e) full) {full' : List NameWarning} (hf : full <+: full') : Tells c (.error e) full' := by
  obtain ⟨ws, h1, h2, h3⟩ := h
  exact ⟨ws, h1, h2.trans hf, fun _ h => by cases h⟩

theorem heard_of {α : Type u} {raises : NameWarning → Bool} {ws : List NameWarning} {r : Py α} {o : Warned α}
    (h : o = cut raises ws r) : Heard raises ws r o := by
  rw [h]; exact heard_cut raises ws r

/-! ### Words -/

theorem wordsOf_nil : wordsOf [] = [] := by simp [wordsOf]

theorem wordsOf_sep {c : Char} (hc : notInName c = true) (a b : Str) : wordsOf (a ++ c :: b) = wordsOf a ++ wordsOf b := by
  unfold wordsOf
  rw [List.splitOnP_append_cons a b hc, List.filter_append]

theorem wordsOf_word {w : Str} (hw : w ≠ []) (h : ∀ c ∈ w, notInName c = false) : wordsOf w = [w] := by
  unfold wordsOf
  rw [List.splitOnP_eq_singleton h]
  simp [hw]

theorem warningsFor_append (a b : List Str) : warningsFor (a ++ b) = warningsFor a ++ warningsFor b := List.flatMap_append

theorem wordsOf_dots (p q : Str) : wordsOf (p ++ dots ++ q) = wordsOf (p ++ ellipsisStr ++ q) := by
  have e1 : p ++ dots ++ q = p ++ '.' :: ([] ++ '.' :: ([] ++ '.' :: q)) := by simp [dots]
  have e2 : p ++ ellipsisStr ++ q = p ++ '…' :: q := by simp [ellipsisStr]
  rw [e1, e2, wordsOf_sep (by decide), wordsOf_sep (by decide), wordsOf_sep (by decide), wordsOf_sep (by decide)]
  simp [wordsOf_nil]

theorem wordsOf_arrow (l r : Str) : wordsOf (l ++ arrow ++ r) = wordsOf l ++ wordsOf r := by
  have e1 : l ++ arrow ++ r = l ++ '-' :: ([] ++ '>' :: r) := by simp [arrow]
  rw [e1, wordsOf_sep (by decide), wordsOf_sep (by decide)]
  simp [wordsOf_nil]

theorem wordsOf_commas (parts : List Str) : wordsOf (List.intercalate [','] parts) = parts.flatMap wordsOf := by
  induction parts with
  | nil => simp [List.intercalate, wordsOf_nil]
  | cons p ps ih =>
    cases ps with
    | nil => simp [List.intercalate]
    | cons q qs =>
      have e : List.intercalate [','] (p :: q :: qs) = p ++ ',' :: List.intercalate [','] (q :: qs) := by
        simp [List.intercalate]
      rw [e, wordsOf_sep (by decide), ih]
      simp

section
variable [PyUnicode]

/-! ### Names -/

theorem discouraged_letters {x : Str} (h : x ∈ pyKeywords ∨ x = "axis".toList) : x ≠ [] ∧ ∀ c ∈ x, c.isAlpha = true := by
  rcases h with h | rfl
  · revert x
    decide
  · decide

theorem letters_name {x : Str} (hne : x ≠ []) (h : ∀ c ∈ x, c.isAlpha = true) (u : Bool) :
    checkAxisName u x = true ∧ isDecimal x = false := by
  have hu : ∀ c ∈ x, c ≠ '_' := by
    intro c hc e
    subst e
    exact absurd (h _ hc) (by decide)
  cases x with
  | nil => exact absurd rfl hne
  | cons c cs =>
    have hc := PyUnicode.ascii_letter c (h c (by simp))
    constructor
    · have h1 : isIdentifier (c :: cs) = true := by
        simp only [isIdentifier, Bool.and_eq_true, Bool.or_eq_true, List.all_eq_true]
        exact ⟨.inl hc.2.1, fun d hd => (PyUnicode.ascii_letter d (h d (by simp [hd]))).2.2⟩
      have h2 : ¬ ((c :: cs).head? = some '_' ∨ (c :: cs).getLast? = some '_') := by
        rintro (e | e)
        · exact hu c (by simp) (by simpa using e)
        · exact hu '_' (List.mem_of_getLast? e) rfl
      unfold checkAxisName
      rw [if_neg (by simp [h1]), if_neg h2]
    · rw [Bool.eq_false_iff]
      intro hd
      obtain ⟨d, hd⟩ := (isNumber_iff.2 hd).2 c (by simp)
      have := PyUnicode.decimal_not_start c d hd
      rw [hc.2.1] at this
      cases this

theorem warningOf_name {x : Str} (h : warningOf x ≠ []) (u : Bool) : checkAxisName u x = true ∧ isDecimal x = false := by
  have hx : x ∈ pyKeywords ∨ x = "axis".toList := by
    unfold warningOf at h
    by_contra hc
    rw [not_or] at hc
    rw [if_neg hc.1, if_neg hc.2] at h
    exact h rfl
  exact letters_name (discouraged_letters hx).1 (discouraged_letters hx).2 u

theorem warningOf_number {x : Str} (h : isDecimal x = true) : warningOf x = [] := by
  by_contra hc
  have := (warningOf_name hc false).2
  rw [h] at this
  cases this

theorem warningOf_noName {x : Str} {u : Bool} (h : checkAxisName u x = false) : warningOf x = [] := by
  by_contra hc
  have := (warningOf_name hc u).1
  rw [h] at this
  cases this

theorem checkAxisNameW_tells (raises : NameWarning → Bool) (u : Bool) (x : Str) :
    checkAxisNameW raises u x = cut raises (warningOf x) (.ok (checkAxisName u x)) := by
  unfold checkAxisNameW
  split
  · rename_i h
    have : checkAxisName u x = false := by simp [checkAxisName, h]
    rw [warningOf_noName this, this]
    rfl
  · rename_i h
    split
    · rename_i h'
      have hw : warningOf x = [] := by
        by_contra hc
        have := (warningOf_name hc false).1
        unfold checkAxisName at this
        rw [if_neg h, if_pos h'] at this
        simp at this
      rw [hw]
      simp only [cut, checkAxisName, if_neg h, if_pos h']
    · rename_i h'
      have hc : checkAxisName u x = true := by
        unfold checkAxisName
        rw [if_neg h, if_neg h']
      rw [hc]
      unfold warningOf
      by_cases hk : x ∈ pyKeywords
      · have ha : x ≠ "axis".toList := by
          rintro rfl
          exact absurd hk (by decide)
        simp only [hk, ha, if_true, if_false, warn, silent, Warned.andThen, cut]
        by_cases hr : raises (.keyword x) = true
        · simp [hr]
        · simp [hr]
      · by_cases ha : x = "axis".toList
        · simp only [if_neg hk, if_pos ha, warn, silent, Warned.andThen, cut]
          by_cases hr : raises .axis = true
          · simp [hr, cut]
          · simp [hr, cut, silent]
        · simp only [hk, ha, if_false, silent, Warned.andThen, cut, List.nil_append]

/-! ### Parsing -/

/-- the characters of a word being read -/
def WordChars (x : Str) : Prop := x ≠ [] ∧ ∀ c ∈ x, PyUnicode.isAlnum c = true ∨ c = '_' ∨ c = '…'

theorem notInName_of {c : Char} (h : PyUnicode.isAlnum c = true ∨ c = '_') : notInName c = false := by
  rw [Bool.eq_false_iff]
  intro hn
  simp only [notInName, decide_eq_true_eq] at hn
  rcases h with h | rfl
  · have := PyUnicode.special_not_alnum c (by
      simp only [List.mem_cons, List.not_mem_nil, or_false] at hn ⊢
      tauto)
    rw [h] at this
    cases this
  · exact absurd hn (by decide)

theorem wordsOf_read {x : Str} (h : WordChars x) (hx : isDecimal x = true ∨ ∃ u, checkAxisName u x = true) : wordsOf x = [x] := by
  have hell : '…' ∉ x := by
    rcases hx with hx | ⟨u, hx⟩
    · intro hm
      obtain ⟨d, hd⟩ := (isNumber_iff.2 hx).2 _ hm
      have := PyUnicode.decimal_alnum _ d hd
      rw [PyUnicode.special_not_alnum '…' (by decide)] at this
      cases this
    · exact isIdentifier_no_ell (checkAxisName_ident hx)
  refine wordsOf_word h.1 (fun c hc => notInName_of ?_)
  rcases h.2 c hc with h1 | h1 | h1
  · exact .inl h1
  · exact .inr h1
  · exact absurd (h1 ▸ hc) hell

theorem addAxisNameW_tells (side : Nat) (u d : Bool) (st : PState) {x : Str} (hx : WordChars x) :
    Tells (fun p => addAxisNameW p side u d st x) (addAxisName side u d st x) (warningsFor (wordsOf x)) := by
  unfold addAxisNameW addAxisName
  split
  · exact Tells.fails _ _
  · simp only
    split
    · rename_i h
      have : warningsFor (wordsOf x) = [] := by rw [h]; decide
      rw [this]
      exact Tells.silent _
    · split
      · rename_i h
        have : warningsFor (wordsOf x) = [] := by
          rw [wordsOf_read hx (.inl h.1)]
          simp [warningsFor, warningOf_number h.1]
        rw [this]
        cases hb : st.bracket <;> exact Tells.silent _
      · have hW : isDecimal x = true ∨ checkAxisName u x = true → warningsFor (wordsOf x) = warningOf x := by
          intro h
          rw [wordsOf_read hx (h.imp_right (fun h => ⟨u, h⟩))]
          simp [warningsFor]
        cases hd : isDecimal x with
        | true =>
          have hw0 := warningOf_number hd
          rw [hW (.inl hd), hw0]
          simp only [Bool.true_or, Bool.not_true, Bool.false_eq_true, if_false, if_true, checkAxisNameW_tells, hw0]
          refine Tells.congr (Tells.andThen (full' := []) (Tells.silent (.ok (checkAxisName u x))) (fun b _ =>
            Tells.andThen (full' := []) (Tells.silent (mkAnon side (st.fresh + 1 - 1) x)) (fun a _ => Tells.silent (.ok
              ({ st with fresh := st.fresh + 1, identifiers := setAdd st.identifiers a, nonUnitary := true }.push a (.group [a]))))))
            (fun p => rfl) (by cases mkAnon side (st.fresh + 1 - 1) x <;> rfl) rfl
        | false =>
          cases hc : checkAxisName u x with
          | true =>
            rw [hW (.inr hc)]
            refine ⟨warningOf x, fun p => ?_, List.prefix_refl _, fun _ _ => rfl⟩
            simp only [checkAxisNameW_tells, hc, Bool.or_true, Bool.not_true, Bool.false_eq_true, if_false]
            have := cut_ok_then (raises := p) (ws := warningOf x) (ws' := []) (a := true) (f := fun isAxisName : Bool =>
              if (!(false || isAxisName)) = true then silent (.error .einops)
              else silent (.ok ({ st with fresh := st.fresh + 1, identifiers := setAdd st.identifiers (.str x) }.push (.str x)
                (.group [.str x])))) (r := .ok ({ st with fresh := st.fresh + 1, identifiers := setAdd st.identifiers (.str x) }.push
                (.str x) (.group [.str x]))) rfl
            rw [List.append_nil] at this
            exact this
          | false =>
            simp only [Bool.or_self, Bool.not_false, if_true, checkAxisNameW_tells, hc, warningOf_noName hc]
            exact Tells.fails _ _

theorem addAxisName_cur {side : Nat} {u d : Bool} {st st' : PState} {x : Str} (h : addAxisName side u d st x = .ok st') :
    st'.cur = st.cur := by
  have hp : ∀ (s : PState) (a : Axis) (t : CompAxis), (s.push a t).cur = s.cur := by
    intro s a t
    unfold PState.push
    split <;> rfl
  unfold addAxisName at h
  split at h
  · cases h
  · simp only at h
    split at h
    · cases h; rw [hp]
    · split at h
      · split at h <;> cases h <;> rfl
      · split at h
        · cases h
        · split at h
          · split at h
            · cases h
            · cases h; rw [hp]
          · cases h; rw [hp]

theorem flushCur_cur {side : Nat} {u d : Bool} {st st' : PState} (h : flushCur side u d st = .ok st') : st'.cur = none := by
  unfold flushCur at h
  split at h
  · rename_i hc; cases h; exact hc
  · exact addAxisName_cur h

theorem flushCurW_tells (side : Nat) (u d : Bool) {st : PState} (hx : ∀ x, st.cur = some x → WordChars x) :
    Tells (fun p => flushCurW p side u d st) (flushCur side u d st) (warningsFor (wordsOf (st.cur.getD []))) := by
  unfold flushCurW flushCur
  cases hc : st.cur with
  | none => exact Tells.congr (Tells.silent _) (fun p => rfl) rfl rfl
  | some x => exact addAxisNameW_tells side u d _ (hx x hc)

/-- the loop and what comes after it -/
theorem scan_tells (side : Nat) (u d : Bool) (s : Str) : ∀ {st : PState}, (∀ x, st.cur = some x → WordChars x) →
    Tells (fun p => (runCharsW p side u d st s).andThen (finishParseW p side u d))
      (pyThen (runChars side u d st s) (finishParse side u d))
      (warningsFor (wordsOf (st.cur.getD [] ++ s))) := by
  induction s with
  | nil =>
    intro st hx
    simp only [runCharsW, runChars, List.append_nil]
    refine Tells.congr (full := [] ++ _) (Tells.andThen (g := finishParse side u d) (Tells.silent (.ok st)) (fun a ha => ?_))
      (fun p => rfl) rfl rfl
    cases ha
    unfold finishParseW finishParse
    split
    · exact Tells.fails _ _
    · exact flushCurW_tells side u d hx
  | cons c cs ih =>
    intro st hx
    have hassoc : ∀ p, (runCharsW p side u d st (c :: cs)).andThen (finishParseW p side u d) =
        (stepCharW p side u d st c).andThen (fun st => (runCharsW p side u d st cs).andThen (finishParseW p side u d)) := by
      intro p
      simp only [runCharsW]
      unfold Warned.andThen
      rcases stepCharW p side u d st c with ⟨l, o⟩
      cases o with
      | error e => rfl
      | ok st' =>
        simp only
        rcases runCharsW p side u d st' cs with ⟨l', o'⟩
        cases o' with
        | error e => rfl
        | ok st'' => simp
    have hbase : pyThen (runChars side u d st (c :: cs)) (finishParse side u d) =
        pyThen (stepChar side u d st c) (fun st => pyThen (runChars side u d st cs) (finishParse side u d)) := by
      simp only [runChars]
      cases stepChar side u d st c <;> rfl
    refine Tells.congr ?_ hassoc hbase rfl
    by_cases hsep : c = '(' ∨ c = ')' ∨ c = ' '
    · have hn : notInName c = true := by rcases hsep with rfl | rfl | rfl <;> decide
      rw [wordsOf_sep hn, warningsFor_append]
      have hstep : Tells (fun p => stepCharW p side u d st c) (stepChar side u d st c)
          (warningsFor (wordsOf (st.cur.getD []))) := by
        unfold stepCharW stepChar
        simp only [if_pos hsep]
        refine Tells.congr (full := _ ++ []) (Tells.andThen (g := fun st =>
            if c = '(' then openBracket st else if c = ')' then closeBracket st else .ok st) (flushCurW_tells side u d hx)
          (fun a _ => ?_)) (fun p => rfl) (by cases flushCur side u d st <;> rfl) (by simp)
        split
        · exact Tells.silent _
        · split <;> exact Tells.silent _
      refine Tells.andThen hstep (fun st' hst' => ?_)
      have hcur : st'.cur = none := by
        unfold stepChar at hst'
        rw [if_pos hsep] at hst'
        split at hst'
        · cases hst'
        · rename_i st1 h1
          have := flushCur_cur h1
          split at hst'
          · unfold openBracket at hst'
            split at hst' <;> cases hst'
            exact this
          · split at hst'
            · unfold closeBracket at hst'
              split at hst' <;> cases hst'
              exact this
            · cases hst'; exact this
      have := ih (st := st') (fun x h => by rw [hcur] at h; cases h)
      rw [hcur] at this
      exact this
    · by_cases hal : PyUnicode.isAlnum c = true ∨ c = '_' ∨ c = '…'
      · have e1 : ∀ p, stepCharW p side u d st c = silent (.ok { st with cur := some (st.cur.getD [] ++ [c]) }) := by
          intro p
          unfold stepCharW
          rw [if_neg hsep, if_pos hal]
        have e2 : stepChar side u d st c = .ok { st with cur := some (st.cur.getD [] ++ [c]) } := by
          unfold stepChar
          rw [if_neg hsep, if_pos hal]
        simp only [e1, e2]
        have hx' : ∀ x, ({ st with cur := some (st.cur.getD [] ++ [c]) } : PState).cur = some x → WordChars x := by
          intro x h
          simp only [Option.some.injEq] at h
          subst h
          refine ⟨by simp, fun c' hc' => ?_⟩
          rcases List.mem_append.1 hc' with h1 | h1
          · cases hcur : st.cur with
            | none => rw [hcur] at h1; cases h1
            | some y => rw [hcur] at h1; exact (hx y hcur).2 c' h1
          · rw [List.mem_singleton.1 h1]; exact hal
        have := ih hx'
        refine Tells.congr (Tells.andThen (full' := warningsFor (wordsOf (st.cur.getD [] ++ [c] ++ cs)))
          (Tells.silent (.ok _)) (fun a ha => ?_)) (fun p => rfl) rfl ?_
        · cases ha; exact this
        · simp
      · have e1 : ∀ p, stepCharW p side u d st c = silent (.error .einops) := by
          intro p
          unfold stepCharW
          rw [if_neg hsep, if_neg hal]
        have e2 : stepChar side u d st c = .error .einops := by
          unfold stepChar
          rw [if_neg hsep, if_neg hal]
        simp only [e1, e2]
        exact Tells.congr (Tells.fails _ _) (fun p => rfl) rfl rfl

theorem parse_tells (side : Nat) (u d : Bool) (s : Str) :
    Tells (fun p => parseExpressionW p side u d s) (parseExpression side u d s) (warningsFor (wordsOf s)) := by
  have key : ∀ (b : Bool) (t : Str), prepareDots s = .ok (b, t) → wordsOf t = wordsOf s →
      Tells (fun p => parseExpressionW p side u d s) (parseExpression side u d s) (warningsFor (wordsOf s)) := by
    intro b t h ht
    have h1 := scan_tells side u d t (st := PState.init) (fun x h => by cases h)
    have h2 := Tells.andThen (full' := []) (f := fun p (st : PState) =>
      silent (.ok (⟨b, st.ellParen, st.identifiers, st.nonUnitary, st.composition⟩ : ParsedExpression))) h1
      (fun a _ => Tells.silent _)
    refine Tells.congr h2 (fun p => ?_) ?_ ?_
    · unfold parseExpressionW
      rw [h]
      simp only [silent, Warned.andThen, List.nil_append]
      rcases runCharsW p side u d PState.init t with ⟨l, o⟩
      cases o with
      | error e => rfl
      | ok st =>
        simp only
        rcases finishParseW p side u d st with ⟨l', o'⟩
        cases o' <;> simp
    · unfold parseExpression
      rw [h]
      simp only
      cases runChars side u d PState.init t with
      | error e => rfl
      | ok st =>
        simp only [pyThen]
        cases finishParse side u d st <;> rfl
    · simp [PState.init, ht]
  rcases prepareDots_cases s with ⟨_, h⟩ | ⟨p, q, hs, _, _, h⟩ | ⟨_, _, h⟩
  · exact key _ _ h rfl
  · exact key _ _ h (by rw [hs, wordsOf_dots])
  · refine Tells.congr (Tells.fails .einops _) (fun p => ?_) ?_ rfl
    · simp [parseExpressionW, h, silent, Warned.andThen]
    · simp [parseExpression, h]

/-! ### Operations -/

theorem markExpected_tells (d : List (Axis × Int)) (names : List Str) :
    Tells (fun p => markExpectedW p d names) (markExpected d names) (warningsFor names) := by
  induction names generalizing d with
  | nil => exact Tells.silent _
  | cons n ns ih =>
    have h0 : Tells (fun p => checkAxisNameW p false n) (.ok (checkAxisName false n)) (warningOf n) :=
      ⟨warningOf n, fun p => checkAxisNameW_tells p false n, List.prefix_refl _, fun _ _ => rfl⟩
    refine Tells.congr (full := warningOf n ++ warningsFor ns) (Tells.andThen h0
      (f := fun p b => if !b then silent (.error .einops) else match dictGet d (.str n) with
        | none => silent (.error .einops)
        | some _ => markExpectedW p (dictSet d (.str n) expectedAxisLength) ns)
      (g := fun b => if !b then .error .einops else match dictGet d (.str n) with
        | none => .error .einops
        | some _ => markExpected (dictSet d (.str n) expectedAxisLength) ns) (fun b hb => ?_)) (fun p => rfl) rfl rfl
    split
    · exact Tells.fails _ _
    · split
      · exact Tells.fails _ _
      · exact ih _

theorem buildRecipe_tells (so : SetOrder) (ex : Expanded) (names : List Str) :
    Tells (fun p => buildRecipeW p so ex names) (buildRecipe so ex names) (warningsFor names) := by
  have h := Tells.andThen (full' := []) (f := fun p _ => silent (buildRecipe so ex names)) (g := fun _ => buildRecipe so ex names)
    (markExpected_tells (knownAll so ex.left ex.rghtIds) names) (fun a _ => Tells.silent _)
  refine Tells.congr h (fun p => rfl) ?_ (by simp)
  cases hm : markExpected (knownAll so ex.left ex.rghtIds) names with
  | error e => simp only [buildRecipe, hm, pyThen]
  | ok d => rfl

theorem prepareRecipe_tells (so : SetOrder) (pattern : Str) (op : OpKind) (names : List Str) (ndim : Nat) :
    Tells (fun p => prepareRecipeW p so pattern op names ndim) (prepareRecipe so pattern op names ndim)
      (warningsFor (wordsOf pattern ++ names)) := by
  cases hs : splitArrow pattern with
  | error e =>
    refine Tells.congr (Tells.fails e _) (fun p => ?_) ?_ rfl
    · simp [prepareRecipeW, hs, silent, Warned.andThen]
    · simp [prepareRecipe, hs]
  | ok lr =>
    obtain ⟨l, r⟩ := lr
    have hp := (splitArrow_iff.1 hs).1
    have h := Tells.andThen (parse_tells 0 false false l) (fun left _ =>
        Tells.andThen (parse_tells 1 false false r) (fun rght _ =>
          Tells.andThen (Tells.silent (checkSides left rght op names)) (fun _ _ =>
            Tells.andThen (Tells.silent (expandSides left rght ndim)) (fun ex _ => buildRecipe_tells so ex names))))
    refine Tells.congr h (fun p => ?_) ?_ ?_
    · simp only [prepareRecipeW, hs, silent, Warned.andThen, List.nil_append]
    · simp only [prepareRecipe, hs]
      cases parseExpression 0 false false l with
      | error e => rfl
      | ok left =>
        cases parseExpression 1 false false r with
        | error e => rfl
        | ok rght =>
          simp only [pyThen]
          cases checkSides left rght op names with
          | error e => rfl
          | ok _ => cases expandSides left rght ndim <;> rfl
    · rw [hp, wordsOf_arrow]
      simp only [warningsFor_append, List.nil_append, List.append_assoc]

theorem reduce_tells {α : Type u} (b : Backend α) (so : SetOrder) (t : Input α) (pattern : Str) (red : Reduction α)
    (kw : List (Str × Size)) : Tells (fun p => reduceW p b so t pattern red kw) (reduce b so t pattern red kw)
      (warningsFor (wordsOf pattern ++ kw.map Prod.fst)) := by
  refine Tells.congr (full := [] ++ (_ ++ [])) (Tells.andThen (Tells.silent (resolveInput b t)) (fun x _ =>
    Tells.andThen (prepareRecipe_tells so pattern red.kind (kw.map Prod.fst) x.ndim) (fun r _ =>
      Tells.silent (applyRecipe b r x red kw)))) (fun p => rfl) ?_ (by simp)
  unfold reduce
  cases resolveInput b t with
  | error e => rfl
  | ok x =>
    simp only [pyThen]
    cases prepareRecipe so pattern red.kind (kw.map Prod.fst) x.ndim <;> rfl

theorem parseShape_tells (shape : List Nat) (pattern : Str) :
    Tells (fun p => parseShapeW p shape pattern) (parseShape shape pattern) (warningsFor (wordsOf pattern)) := by
  refine Tells.congr (full := _ ++ []) (Tells.andThen (g := fun e => if e.hasComposedAxes then .error .runtime
      else if !shapeRankOK e shape.length then .error .runtime
      else pyThen (shapeComposition e shape.length) (fun c => shapeLoop [] c shape)) (parse_tells 0 true false pattern)
    (fun e _ => ?_)) (fun p => rfl) ?_ (by simp)
  · split
    · exact Tells.silent _
    · split
      · exact Tells.silent _
      · exact Tells.congr (full := [] ++ []) (Tells.andThen (Tells.silent (shapeComposition e shape.length))
          (fun c _ => Tells.silent (shapeLoop [] c shape))) (fun p => rfl) rfl rfl
  · unfold parseShape
    cases parseExpression 0 true false pattern with
    | error e => rfl
    | ok e =>
      simp only [pyThen]
      split
      · rfl
      · split
        · rfl
        · cases shapeComposition e shape.length <;> rfl

/-- the loop of `analyze_pattern` as part of the model without warnings -/
def packNames : List Str → Py Unit
  | [] => .ok ()
  | a :: as => if decide (a ≠ ['*']) && !checkAxisName false a then .error .einops else packNames as

theorem packNames_any (axes : List Str) : packNames axes =
    if axes.any (fun a => decide (a ≠ ['*']) && !checkAxisName false a) then .error .einops else .ok () := by
  induction axes with
  | nil => rfl
  | cons a as ih =>
    have e : ((a :: as).any (fun a => decide (a ≠ ['*']) && !checkAxisName false a)) =
        ((decide (a ≠ ['*']) && !checkAxisName false a) || as.any (fun a => decide (a ≠ ['*']) && !checkAxisName false a)) :=
      List.any_cons
    by_cases h : (decide (a ≠ ['*']) && !checkAxisName false a) = true
    · rw [packNames, if_pos h, if_pos (by rw [e, h, Bool.true_or])]
    · rw [packNames, if_neg h, ih]
      rw [Bool.not_eq_true] at h
      exact if_congr (by rw [e, h, Bool.false_or]) rfl rfl

theorem packNames_tells (axes : List Str) : Tells (fun p => packNamesW p axes) (packNames axes) (warningsFor axes) := by
  induction axes with
  | nil => exact Tells.silent _
  | cons a as ih =>
    have hf : warningsFor (a :: as) = warningOf a ++ warningsFor as := rfl
    by_cases ha : a = ['*']
    · have h0 : warningOf a = [] := by rw [ha]; decide
      rw [hf, h0]
      exact Tells.congr ih (fun p => by simp [packNamesW, ha]) (by simp [packNames, ha]) rfl
    · have h0 : Tells (fun p => checkAxisNameW p false a) (.ok (checkAxisName false a)) (warningOf a) :=
        ⟨warningOf a, fun p => checkAxisNameW_tells p false a, List.prefix_refl _, fun _ _ => rfl⟩
      refine Tells.congr (Tells.andThen h0 (f := fun p b => if !b then silent (.error .einops) else packNamesW p as)
        (g := fun b => if !b then .error .einops else packNames as) (fun b hb => ?_)) (fun p => ?_) ?_ hf
      · split
        · exact Tells.fails _ _
        · exact ih
      · simp [packNamesW, ha]
      · simp [packNames, ha, pyThen]

theorem analyzePattern_tells (pattern : Str) :
    Tells (fun p => analyzePatternW p pattern) (analyzePattern pattern) (warningsFor (splitWs pattern)) := by
  unfold analyzePatternW analyzePattern
  simp only
  split
  · exact Tells.fails _ _
  · split
    · exact Tells.fails _ _
    · refine Tells.congr (full := _ ++ []) (Tells.andThen (packNames_tells (splitWs pattern)) (fun _ _ => Tells.silent
        (.ok ((splitWs pattern).idxOf ['*'], (splitWs pattern).length - (splitWs pattern).idxOf ['*'] - 1,
          (splitWs pattern).idxOf ['*'] + ((splitWs pattern).length - (splitWs pattern).idxOf ['*'] - 1)))))
        (fun p => rfl) ?_ (by simp)
      rw [packNames_any]
      split <;> rfl

omit [PyUnicode] in
theorem mapE_ok_length {α : Type u} {β : Type} {g : α → Py β} {l : List α} {m : List β} (h : mapE g l = .ok m) :
    m.length = l.length := by
  induction l generalizing m with
  | nil => cases h; rfl
  | cons a as ih =>
    simp only [mapE] at h
    split at h
    · cases h
    · split at h
      · cases h
      · rename_i h'
        cases h
        simp [ih h']

theorem mapW_tells {α : Type u} {β : Type} {f : (NameWarning → Bool) → α → Warned β} {g : α → Py β} {F : α → List NameWarning}
    (l : List α) (h : ∀ a ∈ l, Tells (fun p => f p a) (g a) (F a)) :
    Tells (fun p => mapW (f p) l) (mapE g l) (l.flatMap F) := by
  induction l with
  | nil => exact Tells.silent _
  | cons a as ih =>
    refine Tells.congr (full := F a ++ (as.flatMap F ++ [])) (Tells.andThen (h a (by simp)) (fun b _ =>
      Tells.andThen (ih (fun x hx => h x (by simp [hx]))) (fun bs _ => Tells.silent (.ok (b :: bs))))) (fun p => rfl) ?_ (by simp)
    simp only [mapE]
    cases g a with
    | error e => rfl
    | ok b =>
      simp only [pyThen]
      cases mapE g as <;> rfl

theorem compactify_tells (pattern : Str) :
    Tells (fun p => compactifyW p pattern) (compactify pattern) (warningsFor (wordsOf pattern)) := by
  unfold compactifyW compactify
  split
  · exact Tells.fails _ _
  · cases hs : splitArrow pattern with
    | error e => exact Tells.congr (Tells.fails e _) (fun p => rfl) rfl rfl
    | ok lr =>
      obtain ⟨l, r⟩ := lr
      have hp := (splitArrow_iff.1 hs).1
      have hl := (splitOn_comma l).1
      refine Tells.congr (full := (splitOn [','] l).flatMap (fun s => warningsFor (wordsOf s)) ++
        (warningsFor (wordsOf r) ++ ([] ++ ([] ++ [])))) (Tells.andThen (mapW_tells (splitOn [','] l)
          (fun s _ => parse_tells 0 true true s)) (fun lefts _ =>
          Tells.andThen (parse_tells 1 true false r) (fun right _ =>
            Tells.andThen (Tells.silent (einsumLefts [] 0 lefts)) (fun q _ =>
              Tells.andThen (Tells.silent (einsumRight q.2 right.composition)) (fun t _ =>
                Tells.silent (.ok (List.intercalate [','] q.1 ++ ['-', '>'] ++ t))))))) (fun p => ?_) ?_ ?_
      · simp only [silent, Warned.andThen, List.nil_append]
      · simp only
        cases mapE (parseExpression 0 true true) (splitOn [','] l) with
        | error e => rfl
        | ok lefts =>
          cases parseExpression 1 true false r with
          | error e => rfl
          | ok right =>
            simp only [pyThen]
            cases einsumLefts [] 0 lefts with
            | error e => rfl
            | ok q =>
              obtain ⟨ss, m⟩ := q
              simp only
              cases einsumRight m right.composition <;> rfl
      · rw [hp, wordsOf_arrow, warningsFor_append]
        conv_lhs => rw [← hl, wordsOf_commas]
        simp [warningsFor, List.flatMap_assoc]

/-- all recipes of a layer -/
theorem prepareAllDims_tells (so : Nat → SetOrder) {l r : Str} (hl : ¬ arrow <:+: l) (hr : ¬ arrow <:+: r) (op : OpKind)
    (names : List Str) : ∃ n, (n = if '.' ∈ l then 8 else 1) ∧
    (∀ m, prepareAllDims so (l ++ arrow ++ r) op names = .ok m → m.length = n) ∧
    Tells (fun p => prepareAllDimsW p so (l ++ arrow ++ r) op names) (prepareAllDims so (l ++ arrow ++ r) op names)
      (warningsFor (wordsOf l) ++ (List.replicate n (warningsFor (wordsOf (l ++ arrow ++ r) ++ names))).flatten) := by
  have hs : splitArrow (l ++ arrow ++ r) = .ok (l, r) := splitArrow_iff.2 ⟨rfl, hl, hr⟩
  generalize hpat : l ++ arrow ++ r = pattern at hs ⊢
  have hW : ∀ p, prepareAllDimsW p so pattern op names = (parseExpressionW p 0 false false l).andThen fun left =>
      mapW (fun d => (prepareRecipeW p (so d) pattern op names d).andThen fun r => silent (.ok (d, r))) (layerDims left) := by
    intro p
    simp only [prepareAllDimsW, hs, silent, Warned.andThen, List.nil_append]
  have hB : prepareAllDims so pattern op names = pyThen (parseExpression 0 false false l) (fun left =>
      mapE (fun d => pyThen (prepareRecipe (so d) pattern op names d) (fun r => .ok (d, r))) (layerDims left)) := by
    simp only [prepareAllDims, hs]
    cases parseExpression 0 false false l with
    | error e => rfl
    | ok left =>
      simp only [pyThen]
      congr 1
      funext d
      cases prepareRecipe (so d) pattern op names d <;> rfl
  cases hp : parseExpression 0 false false l with
  | error e =>
    have h1 := parse_tells 0 false false l
    rw [hp] at h1
    refine ⟨_, rfl, fun m hm => ?_, ?_⟩
    · rw [hB, hp] at hm
      cases hm
    · refine Tells.congr (Tells.andThen (full' := _) h1 (fun a ha => by cases ha)) hW (by rw [hB, hp]) rfl
  | ok left =>
    have hdims : (layerDims left).length = if '.' ∈ l then 8 else 1 := by
      have hell := parse_hasEllipsis 0 hp
      unfold layerDims
      by_cases hd : '.' ∈ l
      · simp [hell.2 hd, hd]
      · simp [Bool.eq_false_iff.2 (fun h => hd (hell.1 h)), hd]
    refine ⟨(layerDims left).length, hdims, fun m hm => ?_, ?_⟩
    · rw [hB, hp] at hm
      exact mapE_ok_length hm
    · refine Tells.congr (Tells.andThen (parse_tells 0 false false l) (fun left' hl' => ?_)) hW hB rfl
      rw [hp] at hl'
      cases hl'
      refine Tells.congr (mapW_tells (F := fun _ => warningsFor (wordsOf pattern ++ names)) (layerDims left) (fun d _ => ?_))
        (fun p => rfl) rfl ?_
      · exact Tells.congr (full := _ ++ []) (Tells.andThen (prepareRecipe_tells (so d) pattern op names d)
          (fun r _ => Tells.silent (.ok (d, r)))) (fun p => rfl) rfl (by simp)
      · generalize layerDims left = ds
        induction ds with
        | nil => rfl
        | cons d ds ih => simp [List.replicate_succ, ih]

/-! ### Caches -/

/-- an entry that was stored is found -/
theorem lruPut_found {κ ν : Type} [DecidableEq κ] {max : Nat} (hmax : 0 < max) {d : List (κ × ν)} {k : κ} {v : ν}
    (h : dictGet d k = none) : dictGet (lruPut max d k v) k = some v := by
  obtain ⟨m, rfl⟩ : ∃ m, max = m + 1 := ⟨max - 1, by omega⟩
  simp [lruPut, h, dictGet]

/-- a recipe that is in the cache: no warning, whatever the filters -/
theorem cachedCallW_hit {α : Type u} (raises : NameWarning → Bool) {rmax smax : Nat} {st : Caches} {c : Call α} {x : Tensor α}
    (hx : resolveInput c.backend c.input = .ok x) {id : Nat} (h : dictGet st.recipes (c.recipeKey x) = some id) :
    cachedCallW raises rmax smax st c = (silent (cachedCall rmax smax st c).1, (cachedCall rmax smax st c).2) := by
  have hg : lruGet st.recipes (c.recipeKey x) =
      (some id, (c.recipeKey x, id) :: st.recipes.filter (fun p => p.1 ≠ c.recipeKey x)) := by
    simp only [lruGet, h]
  simp only [cachedCallW, cachedCall, hx, cachedPrepareW, cachedPrepare, hg, silent]
  rcases cachedCook smax _ c x id with ⟨o, st'⟩
  cases o with
  | error e => rfl
  | ok k =>
    simp only
    cases applyCooked c.backend k x c.red <;> rfl

/-- a recipe that is not in the cache -/
theorem cachedCallW_miss {α : Type u} {rmax smax : Nat} {st : Caches} {c : Call α} {x : Tensor α}
    (hx : resolveInput c.backend c.input = .ok x) (h : dictGet st.recipes (c.recipeKey x) = none) :
    ∃ ws, ws <+: warningsFor (wordsOf c.pattern ++ c.kw.map Prod.fst) ∧
      (∀ r, prepareRecipe c.so c.pattern c.red.kind (c.kw.map Prod.fst) x.ndim = .ok r →
        ws = warningsFor (wordsOf c.pattern ++ c.kw.map Prod.fst)) ∧
      ∀ raises, (cachedCallW raises rmax smax st c).1 = cut raises ws (cachedCall rmax smax st c).1 ∧
        (cachedCallW raises rmax smax st c).2 =
          if ∃ w ∈ ws, raises w = true then st else (cachedCall rmax smax st c).2 := by
  obtain ⟨ws, h1, h2, h3⟩ := prepareRecipe_tells c.so c.pattern c.red.kind (c.kw.map Prod.fst) x.ndim
  refine ⟨ws, h2, h3, fun raises => ?_⟩
  have hg : lruGet st.recipes (c.recipeKey x) = (none, st.recipes) := by simp only [lruGet, h]
  by_cases hq : ∃ w ∈ ws, raises w = true
  · obtain ⟨before, w, after, hws, hb, hw⟩ : ∃ before w after, ws = before ++ w :: after ∧ (∀ v ∈ before, raises v = false) ∧
        raises w = true := by
      clear h1 h2 h3
      induction ws with
      | nil => simp at hq
      | cons v ws ih =>
        by_cases hv : raises v = true
        · exact ⟨[], v, ws, rfl, by simp, hv⟩
        · obtain ⟨before, w, after, e, hb, hw⟩ := ih (by
            obtain ⟨w, hw, hr⟩ := hq
            rcases List.mem_cons.1 hw with rfl | hw
            · exact absurd hr hv
            · exact ⟨w, hw, hr⟩)
          refine ⟨v :: before, w, after, by simp [e], fun v' hv' => ?_, hw⟩
          rcases List.mem_cons.1 hv' with rfl | hv'
          · simpa using hv
          · exact hb v' hv'
    rw [if_pos hq, hws, cut_raised _ hb hw]
    have hp := h1 raises
    simp only [hws, cut_raised _ hb hw] at hp
    simp only [cachedCallW, hx, cachedPrepareW, hg, hp]
    exact ⟨trivial, trivial⟩
  · rw [if_neg hq]
    have hq' : ∀ w ∈ ws, raises w = false := fun w hw => by
      by_contra hc
      exact hq ⟨w, hw, by simpa using hc⟩
    rw [cut_quiet _ hq']
    have hp := h1 raises
    simp only [cut_quiet _ hq'] at hp
    simp only [cachedCallW, cachedCall, hx, cachedPrepareW, cachedPrepare, hg, hp]
    cases prepareRecipe c.so c.pattern c.red.kind (c.kw.map Prod.fst) x.ndim with
    | error e => exact ⟨rfl, rfl⟩
    | ok r =>
      simp only [silent]
      rcases cachedCook smax _ c x st.heap.length with ⟨o, st'⟩
      cases o with
      | error e => exact ⟨rfl, rfl⟩
      | ok k => exact ⟨rfl, rfl⟩

/-- a call that has returned returns the same once more -/
theorem cachedCall_again {α : Type u} {rmax smax : Nat} (hmax : 0 < rmax) {st st' : Caches} {c : Call α} {y : Tensor α}
    (h : cachedCall rmax smax st c = (.ok y, st')) :
    ∃ x id, resolveInput c.backend c.input = .ok x ∧ dictGet st'.recipes (c.recipeKey x) = some id ∧
      (cachedCall rmax smax st' c).1 = .ok y := by
  unfold cachedCall at h
  cases hx : resolveInput c.backend c.input with
  | error e => rw [hx] at h; cases h
  | ok x =>
    rw [hx] at h
    simp only at h
    rcases hp : cachedPrepare rmax st c x with ⟨o, st1⟩
    rw [hp] at h
    cases o with
    | error e => cases h
    | ok id =>
      simp only at h
      rcases hk : cachedCook smax st1 c x id with ⟨o2, st2⟩
      rw [hk] at h
      cases o2 with
      | error e => cases h
      | ok k =>
        simp only [Prod.mk.injEq] at h
        obtain ⟨hy, rfl⟩ := h
        have h1 : dictGet st1.recipes (c.recipeKey x) = some id := by
          unfold cachedPrepare at hp
          cases hd : dictGet st.recipes (c.recipeKey x) with
          | some v =>
            simp only [lruGet, hd, Prod.mk.injEq, Except.ok.injEq] at hp
            obtain ⟨rfl, rfl⟩ := hp
            simp [dictGet]
          | none =>
            simp only [lruGet, hd] at hp
            split at hp
            · cases hp
            · simp only [Prod.mk.injEq, Except.ok.injEq] at hp
              obtain ⟨rfl, rfl⟩ := hp
              exact lruPut_found hmax hd
        have h2 : st2.heap = st1.heap ∧ st2.recipes = st1.recipes ∧ ∃ r, getE st1.heap id = .ok r ∧
            (c.hashable = true → dictGet st2.shapes (c.shapeKey x id) = some k ∨
              dictGet st2.shapes (c.shapeKey x id) = none ∧ reconstruct r (x.shape.map Size.ofNat) c.kw = .ok k) ∧
            (c.hashable = false → reconstruct r (x.shape.map Size.ofNat) c.kw = .ok k) := by
          unfold cachedCook at hk
          cases hg : getE st1.heap id with
          | error e => rw [hg] at hk; cases hk
          | ok r =>
            rw [hg] at hk
            simp only at hk
            cases hh : c.hashable with
            | false =>
              rw [hh] at hk
              simp only [Bool.false_eq_true, if_false, Prod.mk.injEq] at hk
              obtain ⟨hk1, rfl⟩ := hk
              exact ⟨rfl, rfl, r, rfl, fun h => (by cases h), fun _ => hk1⟩
            | true =>
              rw [hh] at hk
              simp only [if_true] at hk
              cases hd : dictGet st1.shapes (c.shapeKey x id) with
              | some v =>
                simp only [lruGet, hd, Prod.mk.injEq, Except.ok.injEq] at hk
                obtain ⟨rfl, rfl⟩ := hk
                exact ⟨rfl, rfl, r, rfl, fun _ => .inl (by simp [dictGet]), fun h => by cases h⟩
              | none =>
                simp only [lruGet, hd] at hk
                split at hk
                · cases hk
                · rename_i k' hr
                  simp only [Prod.mk.injEq, Except.ok.injEq] at hk
                  obtain ⟨rfl, rfl⟩ := hk
                  refine ⟨rfl, rfl, r, rfl, fun _ => ?_, fun h => by cases h⟩
                  by_cases hs : 0 < smax
                  · exact .inl (lruPut_found hs hd)
                  · have : smax = 0 := by omega
                    subst this
                    exact .inr ⟨by simp [lruPut, hd, dictGet], hr⟩
        obtain ⟨e1, e2, r, hr, hh, hn⟩ := h2
        refine ⟨x, id, rfl, by rw [e2]; exact h1, ?_⟩
        have hd2 : dictGet st2.recipes (c.recipeKey x) = some id := by rw [e2]; exact h1
        unfold cachedCall
        rw [hx]
        simp only [cachedPrepare, lruGet, hd2, cachedCook, e1, hr]
        cases hash : c.hashable with
        | false =>
          simp only [Bool.false_eq_true, if_false, hn hash]
          exact hy
        | true =>
          simp only [if_true]
          rcases hh hash with hs | ⟨hs, hrec⟩
          · simp only [hs]
            exact hy
          · simp only [hs, hrec]
            exact hy

end

end Einops
