import Verif.Proofs.Ops

/-! Results of the operations. -/

namespace Einops

universe u
variable {α : Type u}

/-- entries determine a tensor whose dimensions are groups of distinct axes -/
theorem ext_axes {len : AxisMap} {R : List (List Axis)} (hn : R.flatten.Nodup) {y y' : Tensor α}
    (hy : y.shape = R.map (groupSize len)) (hy' : y'.shape = R.map (groupSize len))
    (h : ∀ env, InRange len R.flatten env → y.atAxes R len env = y'.atAxes R len env) : y = y' := by
  apply Tensor.ext_at? (hy.trans hy'.symm)
  intro i hi
  rw [hy] at hi
  obtain ⟨env, henv, rfl⟩ := exists_env hn hi
  exact h env henv

theorem Moves.unique {len : AxisMap} {L R : List (List Axis)} (hn : R.flatten.Nodup)
    (hsub : ∀ a ∈ L.flatten, a ∈ R.flatten) {x y y' : Tensor α} (h : Moves len L R x y) (h' : Moves len L R x y') :
    y = y' := by
  apply ext_axes hn h.1 h'.1
  intro env henv
  have hr : InRange len (L.flatten ++ R.flatten) env := fun a ha => henv a (by
    rcases List.mem_append.1 ha with ha | ha
    · exact hsub a ha
    · exact ha)
  obtain ⟨v, h1, h2⟩ := h.2 env hr
  obtain ⟨v', h1', h2'⟩ := h'.2 env hr
  rw [h2, h2', ← h1, h1']

theorem Reduces.unique {op : List α → Py α} {len : AxisMap} {L R : List (List Axis)} (hn : R.flatten.Nodup)
    {x y y' : Tensor α} (h : Reduces op len L R x y) (h' : Reduces op len L R x y') : y = y' := by
  apply ext_axes hn h.1 h'.1
  intro env henv
  obtain ⟨vs, v, h1, h2, h3⟩ := h.2 env henv
  obtain ⟨vs', v', h1', h2', h3'⟩ := h'.2 env henv
  have : vs = vs' := by
    have := h1.symm.trans h1'
    exact List.map_injective_iff.2 (Option.some_injective _) this
  subst this
  rw [h2] at h2'
  cases h2'
  rw [h3, h3']

theorem atAxes_congr {x : Tensor α} {L : List (List Axis)} {len len' env env' : AxisMap}
    (hl : ∀ a ∈ L.flatten, len a = len' a) (he : ∀ a ∈ L.flatten, env a = env' a) :
    x.atAxes L len env = x.atAxes L len' env' := by
  unfold Tensor.atAxes
  rw [map_groupPos_congr he hl]

theorem Moves.congr {len len' : AxisMap} {L R : List (List Axis)} {x y : Tensor α}
    (hl : ∀ a ∈ L.flatten ++ R.flatten, len a = len' a) (h : Moves len L R x y) : Moves len' L R x y := by
  have hL : ∀ a ∈ L.flatten, len a = len' a := fun a ha => hl a (List.mem_append_left _ ha)
  have hR : ∀ a ∈ R.flatten, len a = len' a := fun a ha => hl a (List.mem_append_right _ ha)
  refine ⟨h.1.trans (map_groupSize_congr hR), fun env henv => ?_⟩
  obtain ⟨v, h1, h2⟩ := h.2 env (fun a ha => by rw [hl a ha]; exact henv a ha)
  exact ⟨v, (atAxes_congr hL (fun _ _ => rfl)).symm.trans h1, (atAxes_congr hR (fun _ _ => rfl)).symm.trans h2⟩

theorem loops_congr {len len' : AxisMap} {D : List Axis} (hl : ∀ a ∈ D, len a = len' a) (env : AxisMap) :
    loops len D env = loops len' D env := by
  induction D generalizing env with
  | nil => rfl
  | cons a D ih =>
    simp only [loops]
    rw [hl a (by simp)]
    congr 1
    funext i
    exact ih (fun b hb => hl b (by simp [hb])) _

theorem Reduces.congr {op : List α → Py α} {len len' : AxisMap} {L R : List (List Axis)} {x y : Tensor α}
    (hl : ∀ a ∈ L.flatten ++ R.flatten, len a = len' a) (h : Reduces op len L R x y) : Reduces op len' L R x y := by
  have hL : ∀ a ∈ L.flatten, len a = len' a := fun a ha => hl a (List.mem_append_left _ ha)
  have hR : ∀ a ∈ R.flatten, len a = len' a := fun a ha => hl a (List.mem_append_right _ ha)
  refine ⟨h.1.trans (map_groupSize_congr hR), fun env henv => ?_⟩
  obtain ⟨vs, v, h1, h2, h3⟩ := h.2 env (fun a ha => by rw [hR a ha]; exact henv a ha)
  refine ⟨vs, v, ?_, h2, (atAxes_congr hR (fun _ _ => rfl)).symm.trans h3⟩
  rw [← h1, loops_congr (len := len) (len' := len') (fun a ha => hL a (List.mem_of_mem_filter ha))]
  apply List.map_congr_left
  intro e _
  exact atAxes_congr (fun a ha => (hL a ha).symm) (fun _ _ => rfl)

variable [PyUnicode] {b : Backend α} (hb : MoveLawful b) (so : SetOrder) {x : Tensor α} {pattern : Str}
  (hell : '…' ∉ pattern) {kw : List (Str × Size)} (hkw : IntKw kw)

theorem Accepted.nodup {op : OpKind} {shape : List Nat} {GL GR : List Elem} {L R : List (List Axis)} {len : AxisMap}
    (h : Accepted op pattern kw shape GL GR L R len) : L.flatten.Nodup ∧ R.flatten.Nodup := by
  obtain ⟨_, l, r, _, hL, hR⟩ := isPattern_split h.pattern
  obtain ⟨n, _, rfl, rfl, _⟩ := h.prepared.groups
  exact ⟨side_flatten_nodup hL 0 n, side_flatten_nodup hR 1 n⟩

/-- the recipe side of an accepted call -/
theorem Accepted.ex {op : OpKind} {shape : List Nat} {GL GR : List Elem} {L R : List (List Axis)} {len : AxisMap}
    (h : Accepted op pattern kw shape GL GR L R len) (hkw : IntKw kw) :
    ∃ ex, ExpandedWF ex ∧ ex.left = L ∧ ex.rght = R ∧ namesOK ex (kw.map Prod.fst) ∧
      firstErr kw ex.left (shape.map Size.ofNat) = none ∧
      (∀ a ∈ ex.left.flatten ++ ex.rght.flatten, (axisSize kw ex.left (shape.map Size.ofNat) a).val = len a) ∧
      ∀ so, prepareRecipe so pattern op (kw.map Prod.fst) shape.length = .ok (recipeOf so ex (kw.map Prod.fst)) := by
  rcases prepare_cases h.pattern op (kw.map Prod.fst) shape.length with ⟨ex, wf, hpr, hn, heq⟩ | ⟨hno, _⟩
  · obtain ⟨h1, h2⟩ := Groups.unique h.pattern (sidesOK_ellipsis hpr.sides) hpr.groups h.prepared.groups
    refine ⟨ex, wf, h1, h2, hn, ?_, ?_, heq⟩
    all_goals
      have hf := fit_sizes (ex := ex) wf hkw (len := len) (shape := shape) (by rw [h1, h2]; exact h.fits)
        (by rw [h1]; exact h.prepared.unknowns) (by rw [h1]; exact h.determinate)
        (by rw [h1, h2]; exact prepared_new h.pattern h.prepared)
    · exact hf.1
    · exact hf.2
  · exact absurd ⟨L, R, h.prepared⟩ hno

/-- An accepted call runs the recipe of its sides. -/
theorem Accepted.run {red : Reduction α} {GL GR : List Elem} {L R : List (List Axis)} {len : AxisMap}
    (h : Accepted red.kind pattern kw x.shape GL GR L R len) (hkw : IntKw kw) (b : Backend α) :
    ∃ ex, ExpandedWF ex ∧ ex.left = L ∧ ex.rght = R ∧
      (∀ a ∈ ex.left.flatten ++ ex.rght.flatten, (axisSize kw ex.left (x.shape.map Size.ofNat) a).val = len a) ∧
      ∀ so, reduce b so (.one x) pattern red kw = applyCooked b (cookedOf ex kw (x.shape.map Size.ofNat)) x red := by
  obtain ⟨ex, wf, h1, h2, hn, he, hs, heq⟩ := h.ex hkw
  refine ⟨ex, wf, h1, h2, hs, fun so => ?_⟩
  have hlen : (x.shape.map Size.ofNat).length = ex.left.length := by
    rw [h1, h.fits.shape_eq]; simp
  simp only [reduce, resolveInput]
  rw [show x.ndim = x.shape.length from rfl, heq so]
  simp only [applyRecipe]
  rw [reconstruct_recipeOf so ex wf kw (x.shape.map Size.ofNat) hkw.nodup hn (by rw [h1]; exact h.prepared.unknowns) hlen, he]

include hb hell hkw in
/-- a result comes from an accepted call -/
theorem accepted_of_ok {red : Reduction α} (hneg : red.kind = .name "repeat".toList → StrictNew b ∨ ∀ p ∈ kw, 0 ≤ p.2.val)
    {y : Tensor α} (h : reduce b so (.one x) pattern red kw = .ok y) :
    ∃ GL GR L R len, Accepted red.kind pattern kw x.shape GL GR L R len := by
  rcases reduce_cases b x hell red hkw.nodup with ⟨GL, GR, ex, hp, wf, hpr, hn, heq⟩ | ⟨_, e, _, heq⟩
  · rw [heq so] at h
    have hl : x.shape.length = ex.left.length := by
      obtain ⟨_, _, _, _, hlen⟩ := hpr.groups
      exact hlen.symm
    have hsub : (∀ a ∈ ex.rght.flatten, a ∈ ex.left.flatten) ∨
        ((∀ a ∈ ex.left.flatten, a ∈ ex.rght.flatten) ∧ (StrictNew b ∨ ∀ p ∈ kw, 0 ≤ p.2.val)) := by
      by_cases h1 : red.kind = .name "rearrange".toList
      · rw [h1] at hpr; exact .inl (rearrange_axes hp hpr).2
      · by_cases h2 : red.kind = .name "repeat".toList
        · have h3 := hpr
          rw [h2] at h3
          exact .inr ⟨(repeat_axes hp h3).1, hneg h2⟩
        · exact .inl (reduce_axes_sub hp ⟨h1, h2⟩ hpr)
    obtain ⟨len, hf, hd⟩ := ok_lengths hb wf hkw hl hn hpr.unknowns (prepared_new hp hpr) red hsub h
    exact ⟨GL, GR, ex.left, ex.rght, len, hp, hpr, hf, hd⟩
  · rw [heq so] at h; cases h

/-- `rearrange` and `repeat` -/
def isMove (op : OpKind) : Prop := op = .name "rearrange".toList ∨ op = .name "repeat".toList

theorem Accepted.move_sub {op : OpKind} (ho : isMove op) {shape : List Nat} {GL GR : List Elem} {L R : List (List Axis)}
    {len : AxisMap} (h : Accepted op pattern kw shape GL GR L R len) : ∀ a ∈ L.flatten, a ∈ R.flatten := by
  rcases ho with rfl | rfl
  · exact (rearrange_axes h.pattern h.prepared).1
  · exact (repeat_axes h.pattern h.prepared).1

include hb hkw in
/-- result of an accepted call that drops no axis -/
theorem Accepted.moves {red : Reduction α} {GL GR : List Elem} {L R : List (List Axis)} {len : AxisMap}
    (h : Accepted red.kind pattern kw x.shape GL GR L R len) (hsub : ∀ a ∈ L.flatten, a ∈ R.flatten) :
    ∃ y, (∀ so, reduce b so (.one x) pattern red kw = .ok y) ∧ Moves len L R x y := by
  obtain ⟨ex, wf, rfl, rfl, hs, heq⟩ := h.run hkw b
  obtain ⟨y, h1, h2⟩ := stages_move wf (fun a ha => hs a (List.mem_append_left _ ha))
    (fun a ha => hs a (List.mem_append_right _ ha)) hb (fun x axes => reduceAxesE b x red axes) h.fits.shape_eq
    (droppedAxes_nil wf hsub)
  exact ⟨y, fun so => by rw [heq so]; exact h1, h2⟩

include hb hell hkw in
theorem move_iff {op : Str} (ho : isMove (.name op))
    (hneg : op = "repeat".toList → StrictNew b ∨ ∀ p ∈ kw, 0 ≤ p.2.val) (y : Tensor α) :
    reduce b so (.one x) pattern (.name op) kw = .ok y ↔
      ∃ GL GR L R len, Accepted (.name op) pattern kw x.shape GL GR L R len ∧ Moves len L R x y := by
  constructor
  · intro h
    obtain ⟨GL, GR, L, R, len, ha⟩ := accepted_of_ok hb so hell hkw (red := .name op)
      (fun h => hneg (by simpa [Reduction.kind] using h)) h
    obtain ⟨y', h1, h2⟩ := ha.moves (red := .name op) hb hkw (ha.move_sub ho)
    rw [h1 so] at h
    cases h
    exact ⟨GL, GR, L, R, len, ha, h2⟩
  · rintro ⟨GL, GR, L, R, len, ha, hm⟩
    obtain ⟨y', h1, h2⟩ := ha.moves (red := .name op) hb hkw (ha.move_sub ho)
    rw [h1 so, hm.unique ha.nodup.2 (ha.move_sub ho) h2]

/-! ### reduce -/

omit [PyUnicode] in
theorem droppedAxes_ne_nil {ex : Expanded} (wf : ExpandedWF ex) : Drops ex.left ex.rght ↔ droppedAxes ex ≠ [] := by
  unfold Drops droppedAxes
  rw [filter_ne_nil_iff]
  simp [wf.rghtIds_iff]

include hb hkw in
/-- result of an accepted call that drops axes -/
theorem Accepted.reduces {red : Reduction α} {op : List α → Py α} (ho : isRed red.kind)
    {GL GR : List Elem} {L R : List (List Axis)} {len : AxisMap}
    (h : Accepted red.kind pattern kw x.shape GL GR L R len) (hd : Drops L R)
    (hred : ∀ (t : Tensor α) k, k < t.ndim → reduceAxesE b t red ((List.range t.ndim).drop k) =
      t.reduceAxes op ((List.range t.ndim).drop k)) (y : Tensor α) :
    reduce b so (.one x) pattern red kw = .ok y ↔ Reduces op len L R x y := by
  obtain ⟨ex, wf, rfl, rfl, hs, heq⟩ := h.run hkw b
  rw [heq so]
  exact stages_reduce wf (fun a ha => hs a (List.mem_append_left _ ha))
    (fun a ha => hs a (List.mem_append_right _ ha)) hb (fun x axes => reduceAxesE b x red axes) op h.fits.shape_eq
    (reduce_axes_sub h.pattern ho h.prepared) ((droppedAxes_ne_nil wf).1 hd)
    (fun t ht => hred t _ ht) y

omit [PyUnicode] in
/-- what the stages do to a tensor before the reduction does not depend on the reduction -/
theorem stages_error (red : Tensor α → List Nat → Py (Tensor α)) {ex : Expanded} (wf : ExpandedWF ex)
    {shape : List Size} {len : AxisMap} (hlenL : ∀ a ∈ ex.left.flatten, (axisSize kw ex.left shape a).val = len a)
    (hb : MoveLawful b) (hx : x.shape = ex.left.map (groupSize len)) (hd : droppedAxes ex ≠ []) {e : PyErr}
    (he : ∀ t axes, red t axes = .error e) :
    applyStages b.reshape b.transpose red b.addAxes (cookedOf ex kw shape) x = .error e := by
  obtain ⟨t, h1, h2, h3⟩ := first_stages wf hlenL hb hx
  have : 0 < (droppedAxes ex).length := List.length_pos_iff.2 hd
  rw [applyStages_eq, h1]
  simp only [Except.bind, optReduce, cooked_reduced]
  rw [if_pos (by simp; omega), he]

include hb hkw in
theorem Accepted.mean_error {GL GR : List Elem} {L R : List (List Axis)} {len : AxisMap}
    (h : Accepted (.name "mean".toList) pattern kw x.shape GL GR L R len) (hd : Drops L R) (hf : b.isFloat x = false) :
    reduce b so (.one x) pattern (.name "mean".toList) kw = .error .notImplemented := by
  obtain ⟨ex, wf, rfl, rfl, hs, heq⟩ := h.run (red := .name "mean".toList) hkw b
  rw [heq so]
  refine stages_error _ wf (fun a ha => hs a (List.mem_append_left _ ha)) hb h.fits.shape_eq
    ((droppedAxes_ne_nil wf).1 hd) (fun t axes => ?_)
  have : b.isFloat t = false := by rw [hb.isFloat t x, hf]
  simp only [reduceAxesE, this, and_true]
  rw [if_neg (by simp [reductionNames]), if_pos trivial]

omit [PyUnicode] in
theorem red_names_isRed {o : Str} (h : o ∈ builtins) : isRed (.name o) := by
  refine ⟨?_, ?_⟩ <;>
  · intro hc
    cases hc
    revert h
    decide

theorem accepted_name {o : Str} {shape : List Nat} {GL GR : List Elem} {L R : List (List Axis)} {len : AxisMap}
    (ho : isRed (.name o)) (h : Accepted (.name o) pattern kw shape GL GR L R len) : o ∈ builtins := by
  have := h.prepared.sides
  rw [SidesOK, if_neg ho.1, if_neg ho.2] at this
  exact this.1 o rfl

include hb hell hkw in
/-- outcome of `reduce` with a built-in reduction -/
theorem reduce_iff {E : ElemOps α} {o : Str} (ho : isRed (.name o)) (hr : ReduceLawful E b o) (y : Tensor α) :
    reduce b so (.one x) pattern (.name o) kw = .ok y ↔
      ∃ GL GR L R len, Accepted (.name o) pattern kw x.shape GL GR L R len ∧
        ((¬ Drops L R ∧ Moves len L R x y) ∨
          (Drops L R ∧ (o = "mean".toList → b.isFloat x = true) ∧ Reduces (E.op o) len L R x y)) := by
  have hnd : ∀ {L R}, ¬ Drops L R → ∀ a ∈ L.flatten, a ∈ R.flatten := by
    intro L R h a ha
    by_contra hc
    exact h ⟨a, ha, hc⟩
  have hredE : ∀ (hmem : o ∈ builtins), (o = "mean".toList → b.isFloat x = true) → ∀ (t : Tensor α) k, k < t.ndim →
      reduceAxesE b t (.name o) ((List.range t.ndim).drop k) = t.reduceAxes (E.op o) ((List.range t.ndim).drop k) := by
    intro hmem hm t k hk
    simp only [reduceAxesE]
    rw [if_neg (not_not_intro (show _ ∈ reductionNames from hmem)), if_neg, hr t k hk]
    rintro ⟨h1, h2⟩
    rw [hb.isFloat t x, hm h1] at h2
    cases h2
  constructor
  · intro h
    obtain ⟨GL, GR, L, R, len, ha⟩ := accepted_of_ok hb so hell hkw (red := .name o) (fun h => absurd h ho.2) h
    refine ⟨GL, GR, L, R, len, ha, ?_⟩
    have hmem := accepted_name ho ha
    by_cases hd : Drops L R
    · right
      have hm : o = "mean".toList → b.isFloat x = true := by
        rintro rfl
        by_contra hc
        rw [ha.mean_error hb so hkw hd (by simpa using hc)] at h
        cases h
      exact ⟨hd, hm, (ha.reduces (red := .name o) hb so hkw ho hd (hredE hmem hm) y).1 h⟩
    · left
      obtain ⟨y', h1, h2⟩ := ha.moves (red := .name o) hb hkw (hnd hd)
      rw [h1 so] at h
      cases h
      exact ⟨hd, h2⟩
  · rintro ⟨GL, GR, L, R, len, ha, ⟨hd, hm⟩ | ⟨hd, hm, hr⟩⟩
    · obtain ⟨y', h1, h2⟩ := ha.moves (red := .name o) hb hkw (hnd hd)
      rw [h1 so, hm.unique ha.nodup.2 (hnd hd) h2]
    · exact (ha.reduces (red := .name o) hb so hkw ho hd (hredE (accepted_name ho ha) hm) y).2 hr

end Einops
