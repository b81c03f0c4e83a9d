import Verif.Proofs.Warnings
import Verif.Proofs.Unpacking
import Verif.PackSpec
import Verif.Props.Cache

/-!
# Warnings about names

`reduceW raises ..` is a call of `reduce` (`rearrange`, `repeat`) whose recipe is not in the cache, `cachedCallW raises ..` one
with the caches in a given state; `raises` says which warnings a filter of the process turns into exceptions.  The first
component of the result are the warnings issued.  `warningsFor names` are the warnings that a sequence of names deserves: one
`RuntimeWarning` for each Python keyword, one `FutureWarning` for each `axis`, in order.
-/

namespace Einops

universe u

section
variable {α : Type u} [PyUnicode]

/-! ### C82 -/

/-- **C82** A call that has to prepare its recipe issues the warnings for the names of the pattern, from left to right, and
then for the keyword arguments; if it fails, some of the first of these.  Warnings change nothing unless one of them is turned
into an exception; then the call ends with the first such warning. -/
theorem C82_call (b : Backend α) (so : SetOrder) (t : Input α) (pattern : Str) (red : Reduction α) (kw : List (Str × Size)) :
    ∃ ws, ws <+: warningsFor (wordsOf pattern ++ kw.map Prod.fst) ∧
      (∀ y, reduce b so t pattern red kw = .ok y → ws = warningsFor (wordsOf pattern ++ kw.map Prod.fst)) ∧
      ∀ raises, Heard raises ws (reduce b so t pattern red kw) (reduceW raises b so t pattern red kw) := by
  obtain ⟨ws, h1, h2, h3⟩ := reduce_tells b so t pattern red kw
  exact ⟨ws, h2, h3, fun raises => heard_of (h1 raises)⟩

/-- **C82** With all warnings turned into exceptions (`-W error`), a call that is accepted otherwise returns if and only if no
name of the pattern and of the keyword arguments is discouraged, and otherwise raises the warning for the first one. -/
theorem C82_errors (b : Backend α) (so : SetOrder) (t : Input α) (pattern : Str) (red : Reduction α) (kw : List (Str × Size))
    {y : Tensor α} (h : reduce b so t pattern red kw = .ok y) :
    ((∀ n ∈ wordsOf pattern ++ kw.map Prod.fst, n ∉ pyKeywords ∧ n ≠ "axis".toList) →
      reduceW (fun _ => true) b so t pattern red kw = ([], .ok y)) ∧
    (∀ before n after, wordsOf pattern ++ kw.map Prod.fst = before ++ n :: after →
      (∀ m ∈ before, m ∉ pyKeywords ∧ m ≠ "axis".toList) →
      (n ∈ pyKeywords →
        reduceW (fun _ => true) b so t pattern red kw = ([.keyword n], .error (.warning (.keyword n)))) ∧
      (n = "axis".toList → reduceW (fun _ => true) b so t pattern red kw = ([.axis], .error (.warning .axis)))) := by
  obtain ⟨ws, h1, _, h3⟩ := reduce_tells b so t pattern red kw
  have hws := h3 y h
  beta_reduce at h1
  have hnone : ∀ l : List Str, (∀ m ∈ l, m ∉ pyKeywords ∧ m ≠ "axis".toList) → warningsFor l = [] := by
    intro l hl
    rw [warningsFor, List.flatMap_eq_nil_iff]
    intro m hm
    rw [warningOf, if_neg (hl m hm).1, if_neg (hl m hm).2]
  refine ⟨fun hn => ?_, fun before n after e hb => ⟨fun hk => ?_, fun ha => ?_⟩⟩
  · rw [h1, hws, hnone _ hn, h]
    rfl
  · have : warningsFor (before ++ n :: after) = .keyword n :: warningsFor after := by
      rw [warningsFor_append, hnone _ hb]
      simp [warningsFor, warningOf, hk]
    rw [h1, hws, e, this]
    rfl
  · have : warningsFor (before ++ n :: after) = .axis :: warningsFor after := by
      rw [warningsFor_append, hnone _ hb, ha]
      simp only [warningsFor, List.flatMap_cons, warningOf, List.nil_append]
      rw [if_neg (by decide), if_pos trivial]
      rfl
    rw [h1, hws, e, this]
    rfl

/-- **C82** If the recipe is in the cache, no warning is issued, whatever the names and the filters. -/
theorem C82_cached (raises : NameWarning → Bool) (rmax smax : Nat) (st : Caches) (c : Call α) {x : Tensor α}
    (hx : resolveInput c.backend c.input = .ok x) {id : Nat} (h : dictGet st.recipes (c.recipeKey x) = some id) :
    cachedCallW raises rmax smax st c = (silent (cachedCall rmax smax st c).1, (cachedCall rmax smax st c).2) :=
  cachedCallW_hit raises hx h

/-- **C82** If it is not, the call issues the warnings described in `C82_call`; a warning that is raised leaves the caches as
they were. -/
theorem C82_uncached (rmax smax : Nat) (st : Caches) (c : Call α) {x : Tensor α}
    (hx : resolveInput c.backend c.input = .ok x) (h : dictGet st.recipes (c.recipeKey x) = none) :
    ∃ ws, ws <+: warningsFor (wordsOf c.pattern ++ c.kw.map Prod.fst) ∧
      (∀ r, prepareRecipe c.so c.pattern c.red.kind (c.kw.map Prod.fst) x.ndim = .ok r →
        ws = warningsFor (wordsOf c.pattern ++ c.kw.map Prod.fst)) ∧
      ∀ raises, Heard raises ws (cachedCall rmax smax st c).1 (cachedCallW raises rmax smax st c).1 ∧
        ((∀ w ∈ ws, raises w = false) → (cachedCallW raises rmax smax st c).2 = (cachedCall rmax smax st c).2) ∧
        ((∃ w ∈ ws, raises w = true) → (cachedCallW raises rmax smax st c).2 = st) := by
  obtain ⟨ws, h2, h3, h4⟩ := cachedCallW_miss (rmax := rmax) (smax := smax) hx h
  refine ⟨ws, h2, h3, fun raises => ?_⟩
  obtain ⟨h5, h6⟩ := h4 raises
  refine ⟨by rw [h5]; exact heard_cut _ _ _, fun hq => ?_, fun hq => ?_⟩
  · rw [h6, if_neg (by rintro ⟨w, hw, hr⟩; rw [hq w hw] at hr; cases hr)]
  · rw [h6, if_pos hq]

/-- **C82** A call that has returned returns the same again, without warnings, even if filters now raise all of them. -/
theorem C82_again (raises raises' : NameWarning → Bool) {rmax smax : Nat} (hmax : 0 < rmax) {st st' : Caches} {c : Call α}
    {ws : List NameWarning} {y : Tensor α} (h : cachedCallW raises rmax smax st c = ((ws, .ok y), st')) :
    (cachedCallW raises' rmax smax st' c).1 = ([], .ok y) := by
  have hbase : cachedCall rmax smax st c = (.ok y, st') := by
    cases hx : resolveInput c.backend c.input with
    | error e =>
      simp only [cachedCallW, hx, silent] at h
      cases h
    | ok x =>
      cases hd : dictGet st.recipes (c.recipeKey x) with
      | some id =>
        rw [cachedCallW_hit raises hx hd] at h
        rcases hc : cachedCall rmax smax st c with ⟨o, st2⟩
        rw [hc] at h
        simp only [Prod.mk.injEq] at h
        obtain ⟨h1, rfl⟩ := h
        cases o with
        | error e => cases h1
        | ok y' => cases h1; rfl
      | none =>
        obtain ⟨ws', _, _, h4⟩ := cachedCallW_miss (rmax := rmax) (smax := smax) hx hd
        obtain ⟨h5, h6⟩ := h4 raises
        rw [h] at h5 h6
        have hq : ∀ w ∈ ws', raises w = false := by
          intro w hw
          by_contra hc
          obtain ⟨before, after, e⟩ := List.append_of_mem hw
          have : ∀ l : List NameWarning, (∃ w ∈ l, raises w = true) → ∀ a : Tensor α, ∀ r, (cut raises l r).2 ≠ .ok a := by
            intro l
            induction l with
            | nil => rintro ⟨w, hw, _⟩; cases hw
            | cons v l ih =>
              rintro ⟨w, hw, hr⟩ a r
              simp only [cut]
              by_cases hv : raises v = true
              · simp [hv]
              · simp only [hv, Bool.false_eq_true, if_false]
                rcases List.mem_cons.1 hw with rfl | hw
                · exact absurd hr hv
                · exact ih ⟨w, hw, hr⟩ a r
          exact this ws' ⟨w, hw, by simpa using hc⟩ y _ (by rw [← h5])
        rw [cut_quiet _ hq] at h5
        rw [if_neg (by rintro ⟨w, hw, hr⟩; rw [hq w hw] at hr; cases hr)] at h6
        rcases hc : cachedCall rmax smax st c with ⟨o, st2⟩
        rw [hc] at h5 h6
        cases o with
        | error e => simp [silent] at h5
        | ok y' =>
          simp only [silent, Prod.mk.injEq, Except.ok.injEq] at h5
          rw [h5.2]
          simp only at h6
          rw [h6]
  obtain ⟨x, id, hx, hd, hy⟩ := cachedCall_again hmax hbase
  rw [cachedCallW_hit raises' hx hd, hy]
  rfl

/-- **C82** Whatever filters were active during the calls made so far, the caches are as after some of these calls, all
made without such filters. -/
theorem C82_history (rmax smax : Nat) (st : Caches) (hist : List ((NameWarning → Bool) × Call α)) :
    ∃ h : List (Call α), h.Sublist (hist.map Prod.snd) ∧ afterCallsW rmax smax st hist = afterCalls rmax smax st h := by
  induction hist generalizing st with
  | nil => exact ⟨[], List.Sublist.refl _, rfl⟩
  | cons rc hist ih =>
    obtain ⟨raises, c⟩ := rc
    obtain ⟨h, hs, he⟩ := ih (cachedCallW raises rmax smax st c).2
    have hstep : (cachedCallW raises rmax smax st c).2 = st ∨
        (cachedCallW raises rmax smax st c).2 = (cachedCall rmax smax st c).2 := by
      cases hx : resolveInput c.backend c.input with
      | error e => simp only [cachedCallW, hx]; exact .inl trivial
      | ok x =>
        cases hd : dictGet st.recipes (c.recipeKey x) with
        | some id => rw [cachedCallW_hit raises hx hd]; exact .inr rfl
        | none =>
          obtain ⟨ws, _, _, h4⟩ := cachedCallW_miss (rmax := rmax) (smax := smax) hx hd
          rw [(h4 raises).2]
          split
          · exact .inl rfl
          · exact .inr rfl
    rcases hstep with e | e
    · refine ⟨h, hs.trans (List.sublist_cons_self _ _), ?_⟩
      simp only [afterCallsW, List.foldl_cons] at he ⊢
      rw [e] at he
      rw [e]
      exact he
    · refine ⟨c :: h, hs.cons_cons c, ?_⟩
      simp only [afterCallsW, afterCalls, List.foldl_cons] at he ⊢
      rw [he, e]

/-- **C82** `parse_shape`. -/
theorem C82_parse_shape (shape : List Nat) (pattern : Str) :
    ∃ ws, ws <+: warningsFor (wordsOf pattern) ∧ (∀ d, parseShape shape pattern = .ok d → ws = warningsFor (wordsOf pattern)) ∧
      ∀ raises, Heard raises ws (parseShape shape pattern) (parseShapeW raises shape pattern) := by
  obtain ⟨ws, h1, h2, h3⟩ := parseShape_tells shape pattern
  exact ⟨ws, h2, h3, fun raises => heard_of (h1 raises)⟩

/-- **C82** `pack` and `unpack`, the pattern not being in the cache. -/
theorem C82_pack (pattern : Str) {names : List Str} (hw : Words pattern names) :
    ∃ ws, ws <+: warningsFor names ∧ (∀ d, analyzePattern pattern = .ok d → ws = warningsFor names) ∧
      ∀ raises, Heard raises ws (analyzePattern pattern) (analyzePatternW raises pattern) := by
  obtain ⟨ws, h1, h2, h3⟩ := analyzePattern_tells pattern
  rw [words_iff.1 hw] at h2 h3
  exact ⟨ws, h2, h3, fun raises => heard_of (h1 raises)⟩

/-- **C82** `einsum`, the pattern not being in the cache. -/
theorem C82_einsum (pattern : Str) :
    ∃ ws, ws <+: warningsFor (wordsOf pattern) ∧ (∀ s, compactify pattern = .ok s → ws = warningsFor (wordsOf pattern)) ∧
      ∀ raises, Heard raises ws (compactify pattern) (compactifyW raises pattern) := by
  obtain ⟨ws, h1, h2, h3⟩ := compactify_tells pattern
  exact ⟨ws, h2, h3, fun raises => heard_of (h1 raises)⟩

/-- **C82** Construction of a layer, no recipe being in the cache: the warnings for the left side, and then the warnings of a
call once for each number of dimensions that the layer is prepared for (8 if there is an ellipsis). -/
theorem C82_layer (so : Nat → SetOrder) {l r : Str} (hl : ¬ arrow <:+: l) (hr : ¬ arrow <:+: r) (op : OpKind) (names : List Str) :
    ∃ n ws, (n = if '.' ∈ l then 8 else 1) ∧
      ws <+: warningsFor (wordsOf l) ++ (List.replicate n (warningsFor (wordsOf (l ++ arrow ++ r) ++ names))).flatten ∧
      (∀ m, prepareAllDims so (l ++ arrow ++ r) op names = .ok m → m.length = n ∧
        ws = warningsFor (wordsOf l) ++ (List.replicate n (warningsFor (wordsOf (l ++ arrow ++ r) ++ names))).flatten) ∧
      ∀ raises, Heard raises ws (prepareAllDims so (l ++ arrow ++ r) op names)
        (prepareAllDimsW raises so (l ++ arrow ++ r) op names) := by
  obtain ⟨n, hn, hm, ws, h1, h2, h3⟩ := prepareAllDims_tells so hl hr op names
  exact ⟨n, ws, hn, h2, fun m h => ⟨hm m h, h3 m h⟩, fun raises => heard_of (h1 raises)⟩

end

/-! ### Examples and witnesses -/

section
attribute [local instance] asciiUnicode

example : wordsOf "a (if b) ... -> axis ... 2".toList = ["a", "if", "b", "axis", "2"].map String.toList := by decide
example : warningsFor (wordsOf "a (if b) -> axis if a".toList) = [.keyword "if".toList, .axis, .keyword "if".toList] := by decide

-- the 35 keywords of Python 3.9 and later, none of them twice
example : pyKeywords.length = 35 ∧ pyKeywords.Nodup := by decide

/-- The documentation of `check_axis_name` (parsing.py:146-150) says that keywords are not valid names; they are accepted, with
a warning for each place where the name stands. -/
theorem C82_keyword :
    reduceW (fun _ => false) (numpyBackend intOps true) idOrder (.one t23) "if axis -> axis if".toList
      (.name "rearrange".toList) [kwInt "if" 2] =
    ([.keyword "if".toList, .axis, .axis, .keyword "if".toList, .keyword "if".toList],
      .ok ⟨[3, 2], [0, 3, 1, 4, 2, 5], rfl⟩) := by rfl

-- with `-W error` the first warning ends the call
example : reduceW (fun _ => true) (numpyBackend intOps true) idOrder (.one t23) "if axis -> axis if".toList
    (.name "rearrange".toList) [kwInt "if" 2] = ([.keyword "if".toList], .error (.warning (.keyword "if".toList))) := by rfl
-- with `-W error::FutureWarning` the second one
example : reduceW (fun w => w = .axis) (numpyBackend intOps true) idOrder (.one t23) "if axis -> axis if".toList
    (.name "rearrange".toList) [kwInt "if" 2] = ([.keyword "if".toList, .axis], .error (.warning .axis)) := by rfl
-- a call that fails warns about what was read before
example : reduceW (fun _ => false) (numpyBackend intOps true) idOrder (.one t23) "if a? -> a if".toList
    (.name "rearrange".toList) [] = ([.keyword "if".toList], .error (.error .einops)) := by rfl

/-- the call of the examples -/
def callIf : Call Int :=
  ⟨numpyBackend intOps true, idOrder, .one t23, "if b -> b if".toList, .name "rearrange".toList, 0, [], true⟩

/-- Whether a call raises depends on the calls before it: with `-W error` it raises at first and again, but returns after the
same call was made while warnings were shown only. -/
theorem C82_depends_on_history :
    (cachedCallW (fun _ => true) 256 1024 (afterCallsW 256 1024 .empty [((fun _ => true), callIf)]) callIf).1 =
      ([.keyword "if".toList], .error (.warning (.keyword "if".toList))) ∧
    (cachedCallW (fun _ => true) 256 1024 (afterCallsW 256 1024 .empty [((fun _ => false), callIf)]) callIf).1 =
      ([], .ok ⟨[3, 2], [0, 3, 1, 4, 2, 5], rfl⟩) := by
  constructor <;> rfl

example : parseShapeW (fun _ => false) [2, 3] "if _".toList = ([.keyword "if".toList], .ok [("if".toList, 2)]) := by rfl
example : analyzePatternW (fun _ => false) "axis * in".toList = ([.axis, .keyword "in".toList], .ok (1, 1, 2)) := by rfl
example : compactifyW (fun _ => false) "if b, b in -> if in".toList =
    ([.keyword "if".toList, .keyword "in".toList, .keyword "if".toList, .keyword "in".toList], .ok "ab,bc->ac".toList) := by rfl
example : (prepareAllDimsW (fun _ => false) (fun _ => idOrder) "... if -> if ...".toList (.name "rearrange".toList) []).1 =
    List.replicate 17 (.keyword "if".toList) := by rfl
example : ¬ arrow <:+: "... if ".toList := by decide

end

end Einops
