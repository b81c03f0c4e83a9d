import Mathlib.Combinatorics.Colex
import Verif.ApartSpec
import Verif.Proofs.Views
import Verif.Proofs.SizeLaws

/-! Telling patterns apart by the results on one tensor. -/

namespace Einops

universe u
variable {α : Type u}

/-! ### Positions determine groups, up to axes of length 1 -/

theorem InRange.mono {len env : AxisMap} {A B : List Axis} (h : InRange len B env) (hs : ∀ a ∈ A, a ∈ B) :
    InRange len A env := fun a ha => h a (hs a ha)

theorem groupPos_proper {len env : AxisMap} {g : List Axis} (h : InRange len g env) :
    groupPos len env (proper len g) = groupPos len env g := by
  induction g with
  | nil => rfl
  | cons a g ih =>
    have ih := ih (h.mono (fun b hb => List.mem_cons_of_mem _ hb))
    by_cases h1 : len a = 1
    · have h0 : env a = 0 := by have := h a (List.mem_cons_self ..); omega
      rw [proper_cons_one h1, ih, groupPos_cons, h0]
      omega
    · rw [proper_cons h1, groupPos_cons, groupPos_cons, ih, groupSize_proper]

theorem mem_proper {len : AxisMap} {g : List Axis} {a : Axis} : a ∈ proper len g ↔ a ∈ g ∧ len a ≠ 1 := by
  simp [proper]

/-- coordinates that are 0 but for one axis -/
def unitAt (a : Axis) : AxisMap := fun b => if b = a then 1 else 0

theorem unitAt_inRange {len : AxisMap} {A : List Axis} (h : ∀ b ∈ A, 0 < len b) {a : Axis} (ha : a ∈ A → 2 ≤ len a) :
    InRange len A (unitAt a) := by
  intro b hb
  unfold unitAt
  split
  · rename_i h1
    subst h1
    exact ha hb
  · exact h b hb

theorem groupPos_zero {len env : AxisMap} {g : List Axis} (h : ∀ a ∈ g, env a = 0) : groupPos len env g = 0 := by
  induction g with
  | nil => rfl
  | cons a g ih =>
    rw [groupPos_cons, h a (List.mem_cons_self ..), ih (fun b hb => h b (List.mem_cons_of_mem _ hb))]
    omega

theorem proper_lists_of_pos {len : AxisMap} {p q : List Axis} (hp : p.Nodup) (hq : q.Nodup)
    (h2 : ∀ a ∈ p ++ q, 2 ≤ len a)
    (h : ∀ env, InRange len (p ++ q) env → groupPos len env p = groupPos len env q) : p = q := by
  have hpos : ∀ a ∈ p ++ q, 0 < len a := fun a ha => by have := h2 a ha; omega
  induction p using List.reverseRecOn generalizing q with
  | nil =>
    induction q using List.reverseRecOn with
    | nil => rfl
    | append_singleton q b _ =>
      have := h (unitAt b) (unitAt_inRange hpos (h2 b))
      rw [groupPos_append, groupPos_singleton] at this
      simp only [unitAt, if_true] at this
      simp [groupPos] at this
  | append_singleton p a ih =>
    have e := h (unitAt a) (unitAt_inRange hpos (h2 a))
    have hz : groupPos len (unitAt a) p = 0 := by
      refine groupPos_zero (fun b hb => if_neg ?_)
      rintro rfl
      exact (List.nodup_append.1 hp).2.2 b hb b (by simp) rfl
    rw [groupPos_append, hz, groupPos_singleton] at e
    simp only [unitAt, if_true, Nat.zero_mul, Nat.zero_add] at e
    induction q using List.reverseRecOn with
    | nil => simp [groupPos] at e
    | append_singleton q b _ =>
      rw [groupPos_append, groupPos_singleton, groupSize_singleton] at e
      have hb2 : 2 ≤ len b := h2 b (by simp)
      have hba : b = a := by
        by_contra hne
        rw [show unitAt a b = 0 from if_neg hne, Nat.add_zero] at e
        have := (mul_eq_one.1 e.symm).2
        omega
      subst hba
      congr 1
      refine ih (q := q) (List.nodup_append.1 hp).1 (List.nodup_append.1 hq).1 (fun c hc => h2 c ?_) (fun env henv => ?_)
        (fun c hc => hpos c ?_)
      · simp only [List.mem_append] at hc ⊢
        tauto
      · have hr : InRange len (p ++ [b] ++ (q ++ [b])) (fun c => if c = b then 0 else env c) := by
          intro c hc
          by_cases hcb : c = b
          · simp only [hcb, if_true]; omega
          · simp only [hcb, if_false]
            refine henv c ?_
            simp only [List.mem_append, List.mem_singleton] at hc ⊢
            tauto
        have e2 := h _ hr
        rw [groupPos_append, groupPos_append, groupPos_singleton, groupSize_singleton] at e2
        simp only [if_true, Nat.add_zero] at e2
        have e3 := Nat.eq_of_mul_eq_mul_right (by omega) e2
        have k1 : groupPos len (fun c => if c = b then 0 else env c) p = groupPos len env p := by
          refine groupPos_congr (fun c hc => if_neg ?_) (fun _ _ => rfl)
          rintro rfl
          exact (List.nodup_append.1 hp).2.2 c hc c (by simp) rfl
        have k2 : groupPos len (fun c => if c = b then 0 else env c) q = groupPos len env q := by
          refine groupPos_congr (fun c hc => if_neg ?_) (fun _ _ => rfl)
          rintro rfl
          exact (List.nodup_append.1 hq).2.2 c hc c (by simp) rfl
        rw [← k1, ← k2]
        exact e3
      · simp only [List.mem_append] at hc ⊢
        tauto

theorem proper_of_pos {len : AxisMap} {g h : List Axis} (hg : g.Nodup) (hh : h.Nodup) (hpos : ∀ a ∈ g ++ h, 0 < len a)
    (he : ∀ env, InRange len (g ++ h) env → groupPos len env g = groupPos len env h) : proper len g = proper len h := by
  refine proper_lists_of_pos (len := len) (hg.filter _) (hh.filter _) (fun a ha => ?_) (fun env henv => ?_)
  · rcases List.mem_append.1 ha with ha | ha
    · have := hpos a (List.mem_append_left _ (mem_proper.1 ha).1)
      have := (mem_proper.1 ha).2
      omega
    · have := hpos a (List.mem_append_right _ (mem_proper.1 ha).1)
      have := (mem_proper.1 ha).2
      omega
  · have hr : InRange len (g ++ h) (fun a => if len a = 1 then 0 else env a) := by
      intro a ha
      simp only
      split
      · omega
      · rename_i h1
        refine henv a ?_
        rcases List.mem_append.1 ha with ha | ha
        · exact List.mem_append_left _ (mem_proper.2 ⟨ha, h1⟩)
        · exact List.mem_append_right _ (mem_proper.2 ⟨ha, h1⟩)
    have := he _ hr
    rw [← groupPos_proper (hr.mono (fun a ha => List.mem_append_left _ ha)),
      ← groupPos_proper (hr.mono (fun a ha => List.mem_append_right _ ha))] at this
    rw [groupPos_congr (env := env) (env' := fun a => if len a = 1 then 0 else env a) (len' := len)
        (fun a ha => (if_neg (mem_proper.1 ha).2).symm) (fun _ _ => rfl), this]
    exact groupPos_congr (fun a ha => if_neg (mem_proper.1 ha).2) (fun _ _ => rfl)

/-- group by group -/
theorem map_proper_of_pos {len : AxisMap} {A : List Axis} {R R' : List (List Axis)} (hR : R.flatten.Nodup)
    (hR' : R'.flatten.Nodup) (hs : ∀ a ∈ R.flatten, a ∈ A) (hs' : ∀ a ∈ R'.flatten, a ∈ A) (hpos : ∀ a ∈ A, 0 < len a)
    (hl : R.length = R'.length)
    (he : ∀ env, InRange len A env → R.map (groupPos len env) = R'.map (groupPos len env)) :
    R.map (proper len) = R'.map (proper len) := by
  apply List.ext_getElem (by simpa using hl)
  intro j h1 h2
  simp only [List.length_map] at h1 h2
  rw [List.getElem_map, List.getElem_map]
  have m1 : ∀ a ∈ R[j], a ∈ A := fun a ha => hs a (List.mem_flatten.2 ⟨_, List.getElem_mem h1, ha⟩)
  have m2 : ∀ a ∈ R'[j], a ∈ A := fun a ha => hs' a (List.mem_flatten.2 ⟨_, List.getElem_mem h2, ha⟩)
  have hboth : ∀ a ∈ R[j] ++ R'[j], a ∈ A := fun a ha => (List.mem_append.1 ha).elim (m1 a) (m2 a)
  refine proper_of_pos ((List.nodup_flatten.1 hR).1 _ (List.getElem_mem h1))
    ((List.nodup_flatten.1 hR').1 _ (List.getElem_mem h2)) (fun a ha => hpos a (hboth a ha)) (fun env henv => ?_)
  have hr : InRange len A (fun a => if a ∈ R[j] ++ R'[j] then env a else 0) := by
    intro a ha
    simp only
    split
    · rename_i h; exact henv a h
    · exact hpos a ha
  have := congrArg (fun l => l[j]?) (he _ hr)
  simp only [List.getElem?_map, List.getElem?_eq_getElem h1, List.getElem?_eq_getElem h2, Option.map_some,
    Option.some.injEq] at this
  rw [groupPos_congr (env' := fun a => if a ∈ R[j] ++ R'[j] then env a else 0) (len' := len)
    (fun a ha => (if_pos (List.mem_append_left _ ha)).symm) (fun _ _ => rfl), this]
  exact groupPos_congr (fun a ha => if_pos (List.mem_append_right _ ha)) (fun _ _ => rfl)

theorem map_pos_of_proper {len env : AxisMap} {R R' : List (List Axis)} (h : R.map (proper len) = R'.map (proper len))
    (hr : InRange len R.flatten env) (hr' : InRange len R'.flatten env) :
    R.map (groupPos len env) = R'.map (groupPos len env) := by
  have e : ∀ {R : List (List Axis)}, InRange len R.flatten env →
      R.map (groupPos len env) = (R.map (proper len)).map (groupPos len env) := by
    intro R hr
    rw [List.map_map]
    exact List.map_congr_left (fun g hg => (groupPos_proper (hr.group hg)).symm)
  rw [e hr, e hr', h]

theorem map_size_of_proper {len : AxisMap} {R R' : List (List Axis)} (h : R.map (proper len) = R'.map (proper len)) :
    R.map (groupSize len) = R'.map (groupSize len) := by
  have e : ∀ R : List (List Axis), R.map (groupSize len) = (R.map (proper len)).map (groupSize len) := by
    intro R
    rw [List.map_map]
    exact List.map_congr_left (fun g _ => (groupSize_proper len g).symm)
  rw [e R, e R', h]

/-! ### Tensors with different elements -/

theorem at_inj {x : Tensor α} (hx : x.data.Nodup) {i j : List Nat} {v : α} (hi : x.at? i = some v) (hj : x.at? j = some v) :
    i = j := by
  have bi := x.at?_some_inBounds hi
  have bj := x.at?_some_inBounds hj
  rw [x.at?_of_inBounds bi] at hi
  rw [x.at?_of_inBounds bj] at hj
  obtain ⟨h1, e1⟩ := List.getElem?_eq_some_iff.1 hi
  obtain ⟨h2, e2⟩ := List.getElem?_eq_some_iff.1 hj
  exact ravel_inj bi bj ((List.Nodup.getElem_inj_iff hx).1 (e1.trans e2.symm))

/-- positions determine the coordinates -/
theorem env_of_pos {len env env' : AxisMap} {L : List (List Axis)} (h : InRange len L.flatten env)
    (h' : InRange len L.flatten env') (he : L.map (groupPos len env) = L.map (groupPos len env')) :
    ∀ a ∈ L.flatten, env a = env' a := by
  have e := congrArg (ravel (L.map (groupSize len))) he
  rw [ravel_groups, ravel_groups, ← ravel_map, ← ravel_map] at e
  have := ravel_inj (inBounds_map.2 h) (inBounds_map.2 h') e
  exact List.map_inj_left.1 this

/-- two rearranges with the same result -/
theorem Moves.proper_eq {len : AxisMap} {L R R' : List (List Axis)} {x y : Tensor α} (hL : L.flatten.Nodup)
    (hR : R.flatten.Nodup) (hR' : R'.flatten.Nodup) (hs : ∀ a, a ∈ R.flatten ↔ a ∈ L.flatten)
    (hs' : ∀ a, a ∈ R'.flatten ↔ a ∈ L.flatten) (hpos : ∀ a ∈ L.flatten, 0 < len a) (hx : x.data.Nodup)
    (h : Moves len L R x y) (h' : Moves len L R' x y) : R.map (proper len) = R'.map (proper len) := by
  have hsh := h.1.symm.trans h'.1
  refine map_proper_of_pos hR hR' (fun a ha => (hs a).1 ha) (fun a ha => (hs' a).1 ha) hpos
    (by simpa using congrArg List.length hsh) (fun env henv => ?_)
  have hrR : InRange len R.flatten env := henv.mono (fun a ha => (hs a).1 ha)
  obtain ⟨env', henv', he'⟩ := exists_env (len := len) hR' (i := R.map (groupPos len env))
    (by rw [← hsh]; exact inBounds_groups hrR)
  have hr : ∀ e, InRange len L.flatten e → ∀ {Q : List (List Axis)}, (∀ a, a ∈ Q.flatten ↔ a ∈ L.flatten) →
      InRange len (L.flatten ++ Q.flatten) e := fun e he Q hq a ha =>
    he a ((List.mem_append.1 ha).elim id (hq a).1)
  have henv'L : InRange len L.flatten env' := henv'.mono (fun a ha => (hs' a).2 ha)
  obtain ⟨v, x1, y1⟩ := h.2 env (hr env henv hs)
  obtain ⟨v', x2, y2⟩ := h'.2 env' (hr env' henv'L hs')
  unfold Tensor.atAxes at y1 y2 x1 x2
  rw [← he', y1] at y2
  cases y2
  have := env_of_pos henv henv'L (at_inj hx x1 x2)
  rw [he']
  exact map_groupPos_congr (fun a ha => (this a ((hs' a).1 ha)).symm) (fun _ _ => rfl)

theorem Moves.of_proper {len : AxisMap} {L R R' : List (List Axis)} {x y : Tensor α}
    (hsub : ∀ a ∈ R.flatten, a ∈ L.flatten)
    (he : R.map (proper len) = R'.map (proper len)) (h : Moves len L R x y) : Moves len L R' x y := by
  refine ⟨h.1.trans (map_size_of_proper he), fun env henv => ?_⟩
  have h1 : InRange len L.flatten env := henv.mono (fun a ha => List.mem_append_left _ ha)
  obtain ⟨v, e1, e2⟩ := h.2 env (fun a ha => h1 a ((List.mem_append.1 ha).elim id (hsub a)))
  refine ⟨v, e1, ?_⟩
  unfold Tensor.atAxes at e2 ⊢
  rw [← map_pos_of_proper he (h1.mono hsub) (henv.mono (fun a ha => List.mem_append_right _ ha))]
  exact e2

/-! ### Places of axes -/

theorem coord_of_pos {len env : AxisMap} {g h : List Axis} {a : Axis} (hr : InRange len (g ++ a :: h) env) :
    groupPos len env (g ++ a :: h) / groupSize len h % len a = env a := by
  have h1 : env a < len a := hr a (by simp)
  have h2 : groupPos len env h < groupSize len h := groupPos_lt (hr.mono (fun b hb => by simp [hb]))
  rw [groupPos_append, groupPos_cons, groupSize_cons,
    show groupPos len env g * (len a * groupSize len h) + (env a * groupSize len h + groupPos len env h) =
      groupPos len env h + (groupPos len env g * len a + env a) * groupSize len h by ring,
    Nat.add_mul_div_right _ _ (by omega), Nat.div_eq_of_lt h2, Nat.zero_add, Nat.add_comm, Nat.add_mul_mod_self_right,
    Nat.mod_eq_of_lt h1]

theorem exists_placed {len : AxisMap} {R : List (List Axis)} {a : Axis} (ha : a ∈ R.flatten) : ∃ j w, PlacedAt len R a j w := by
  obtain ⟨g, hg, hag⟩ := List.mem_flatten.1 ha
  obtain ⟨j, hj, rfl⟩ := List.mem_iff_getElem.1 hg
  obtain ⟨g, h, e⟩ := List.append_of_mem hag
  exact ⟨j, _, g, h, by rw [List.getElem?_eq_getElem hj, e], rfl⟩

/-- the coordinate of an axis, read off the position -/
theorem PlacedAt.coord {len env : AxisMap} {R : List (List Axis)} {a : Axis} {j w : Nat} (h : PlacedAt len R a j w)
    (hr : InRange len R.flatten env) :
    ∃ q, (R.map (groupPos len env))[j]? = some q ∧ env a = q / w % len a := by
  obtain ⟨g, k, e, rfl⟩ := h
  refine ⟨groupPos len env (g ++ a :: k), by rw [List.getElem?_map, e]; rfl, ?_⟩
  exact (coord_of_pos (hr.group (List.mem_of_getElem? e))).symm

/-- a position in dimension `j` only -/
def onlyAt (n j q : Nat) : List Nat := (List.range n).map (fun i => if i = j then q else 0)

theorem onlyAt_get {n j q i : Nat} (h : i < n) : (onlyAt n j q)[i]? = some (if i = j then q else 0) := by
  simp [onlyAt, h]

theorem onlyAt_inBounds {s : List Nat} (hs : ∀ d ∈ s, 0 < d) {j q d : Nat} (hj : s[j]? = some d) (hq : q < d) :
    inBounds (onlyAt s.length j q) s = true := by
  have hl : (onlyAt s.length j q).length = s.length := by simp [onlyAt]
  have key : ∀ {i s : List Nat}, i.length = s.length → (∀ k x d : Nat, i[k]? = some x → s[k]? = some d → x < d) →
      inBounds i s = true := by
    intro i
    induction i with
    | nil => intro s hl _; cases s with
      | nil => rfl
      | cons => simp at hl
    | cons x i ih =>
      intro s hl hk
      cases s with
      | nil => simp at hl
      | cons d s =>
        simp only [inBounds, Bool.and_eq_true, decide_eq_true_eq]
        exact ⟨hk 0 x d rfl rfl, ih (by simpa using hl) (fun k x' d' h1 h2 => hk (k + 1) x' d' (by simpa using h1) (by simpa using h2))⟩
  refine key hl (fun k x e h1 h2 => ?_)
  have hk : k < s.length := (List.getElem?_eq_some_iff.1 h2).1
  rw [onlyAt_get hk] at h1
  cases h1
  split
  · rename_i hkj
    subst hkj
    rw [hj] at h2
    cases h2
    exact hq
  · exact hs e (List.mem_of_getElem? h2)

/-- Two repeats of a tensor with different elements, with the same result: the old axes are at the same places. -/
theorem Moves.placed {len len' : AxisMap} {L R R' : List (List Axis)} {x y : Tensor α}
    (hR : R.flatten.Nodup) (hR' : R'.flatten.Nodup) (hs : ∀ a ∈ L.flatten, a ∈ R.flatten)
    (hs' : ∀ a ∈ L.flatten, a ∈ R'.flatten) (hlen : ∀ a ∈ L.flatten, len' a = len a) (hpos : ∀ a ∈ R.flatten, 0 < len a)
    (hx : x.data.Nodup) (h : Moves len L R x y) (h' : Moves len' L R' x y) {a : Axis} (ha : a ∈ L.flatten)
    (h1 : len a ≠ 1) {j w : Nat} (hp : PlacedAt len R a j w) : PlacedAt len' R' a j w := by
  have hsh := h.1.symm.trans h'.1
  have hr : ∀ {len : AxisMap} {Q : List (List Axis)} {e : AxisMap}, (∀ a ∈ L.flatten, a ∈ Q.flatten) →
      InRange len Q.flatten e → InRange len (L.flatten ++ Q.flatten) e := fun hq he b hb =>
    he b ((List.mem_append.1 hb).elim (hq b) id)
  -- equal positions have equal coordinates
  have key : ∀ i, inBounds i y.shape = true → ∃ env env', InRange len R.flatten env ∧ InRange len' R'.flatten env' ∧
      i = R.map (groupPos len env) ∧ i = R'.map (groupPos len' env') ∧ ∀ b ∈ L.flatten, env b = env' b := by
    intro i hi
    obtain ⟨env, henv, e1⟩ := exists_env (len := len) hR (i := i) (by rw [← h.1]; exact hi)
    obtain ⟨env', henv', e2⟩ := exists_env (len := len') hR' (i := i) (by rw [← h'.1]; exact hi)
    refine ⟨env, env', henv, henv', e1, e2, ?_⟩
    obtain ⟨v, x1, y1⟩ := h.2 env (hr hs henv)
    obtain ⟨v', x2, y2⟩ := h'.2 env' (hr hs' henv')
    unfold Tensor.atAxes at x1 x2 y1 y2
    rw [← e1] at y1
    rw [← e2, y1] at y2
    cases y2
    rw [map_groupPos_congr (len' := len) (fun _ _ => rfl) hlen] at x2
    exact env_of_pos (henv.mono hs) (fun b hb => by rw [← hlen b hb]; exact henv' b (hs' b hb)) (at_inj hx x1 x2)
  obtain ⟨j', w', hp'⟩ := exists_placed (len := len') (hs' a ha)
  have hdims : ∀ d ∈ y.shape, 0 < d := by
    rw [h.1]
    intro d hd
    obtain ⟨g, hg, rfl⟩ := List.mem_map.1 hd
    have : ∀ g : List Axis, (∀ b ∈ g, 0 < len b) → 0 < groupSize len g := by
      intro g hg
      induction g with
      | nil => simp [groupSize]
      | cons b g ih =>
        rw [groupSize_cons]
        exact Nat.mul_pos (hg b (List.mem_cons_self ..)) (ih (fun c hc => hg c (List.mem_cons_of_mem _ hc)))
    exact this g (fun b hb => hpos b (List.mem_flatten.2 ⟨g, hg, hb⟩))
  have ha2 : 2 ≤ len a := by have := hpos a (hs a ha); omega
  -- the dimension of an axis is longer than the distance of neighbours
  have fits : ∀ {len : AxisMap} {Q : List (List Axis)} {j w : Nat}, y.shape = Q.map (groupSize len) → 2 ≤ len a →
      PlacedAt len Q a j w → 0 < w ∧ ∃ d, y.shape[j]? = some d ∧ w < d := by
    rintro len Q j w hy h2 ⟨g, k, e, rfl⟩
    have hd : y.shape[j]? = some (groupSize len g * (len a * groupSize len k)) := by
      rw [hy, List.getElem?_map, e, Option.map_some, groupSize_append, groupSize_cons]
    have hpos := hdims _ (List.mem_of_getElem? hd)
    have hg : 0 < groupSize len g := Nat.pos_of_mul_pos_right hpos
    have hk : 0 < groupSize len k := Nat.pos_of_mul_pos_left (Nat.pos_of_mul_pos_left hpos)
    refine ⟨hk, _, hd, ?_⟩
    have h3 : 2 * groupSize len k ≤ len a * groupSize len k := Nat.mul_le_mul_right _ h2
    have h4 : 1 * (len a * groupSize len k) ≤ groupSize len g * (len a * groupSize len k) := Nat.mul_le_mul_right _ hg
    omega
  obtain ⟨hw0, d, hd, hwd⟩ := fits h.1 ha2 hp
  obtain ⟨hw0', d', hd', hwd'⟩ := fits h'.1 (by rw [hlen a ha]; exact ha2) hp'
  have hj : j < y.shape.length := (List.getElem?_eq_some_iff.1 hd).1
  have hj' : j' < y.shape.length := (List.getElem?_eq_some_iff.1 hd').1
  -- step along the axis in the one result
  obtain ⟨env, env', henv, henv', e1, e2, e3⟩ := key _ (onlyAt_inBounds hdims hd hwd)
  obtain ⟨q, hq, c⟩ := hp.coord henv
  obtain ⟨q', hq', c'⟩ := hp'.coord henv'
  rw [← e1, onlyAt_get hj, if_pos rfl] at hq
  rw [← e2, onlyAt_get hj'] at hq'
  cases hq
  rw [Nat.div_self hw0, Nat.mod_eq_of_lt (by omega)] at c
  have c2 : q' / w' % len' a = 1 := by rw [← c', ← e3 a ha, c]
  have hjj : j' = j := by
    by_contra hne
    rw [if_neg hne] at hq'
    cases hq'
    simp at c2
  subst hjj
  rw [if_pos rfl] at hq'
  cases hq'
  have hle : w' ≤ w := by
    by_contra hlt
    rw [Nat.div_eq_of_lt (by omega)] at c2
    simp at c2
  -- and in the other
  obtain ⟨env, env', henv, henv', e1, e2, e3⟩ := key _ (onlyAt_inBounds hdims hd' hwd')
  obtain ⟨q, hq, c⟩ := hp.coord henv
  obtain ⟨q', hq', c'⟩ := hp'.coord henv'
  rw [← e1, onlyAt_get hj, if_pos rfl] at hq
  rw [← e2, onlyAt_get hj, if_pos rfl] at hq'
  cases hq
  cases hq'
  rw [Nat.div_self hw0', Nat.mod_eq_of_lt (by rw [hlen a ha]; omega)] at c'
  have hge : w ≤ w' := by
    by_contra hlt
    rw [Nat.div_eq_of_lt (by omega), e3 a ha, c'] at c
    simp at c
  rw [show w = w' by omega]
  exact hp'

/-- Same shape and same places: the results are the same. -/
theorem Moves.of_placed {len len' : AxisMap} {L R R' : List (List Axis)} {x y y' : Tensor α}
    (hR : R.flatten.Nodup) (hR' : R'.flatten.Nodup) (hs : ∀ a ∈ L.flatten, a ∈ R.flatten)
    (hs' : ∀ a ∈ L.flatten, a ∈ R'.flatten) (hlen : ∀ a ∈ L.flatten, len' a = len a)
    (h : Moves len L R x y) (h' : Moves len' L R' x y') (hsh : y.shape = y'.shape)
    (hp : ∀ a ∈ L.flatten, len a ≠ 1 → ∀ j w, PlacedAt len R a j w → PlacedAt len' R' a j w) : y = y' := by
  apply Tensor.ext_at? hsh
  intro i hi
  have hr : ∀ {len : AxisMap} {Q : List (List Axis)} {e : AxisMap}, (∀ a ∈ L.flatten, a ∈ Q.flatten) →
      InRange len Q.flatten e → InRange len (L.flatten ++ Q.flatten) e := fun hq he b hb =>
    he b ((List.mem_append.1 hb).elim (hq b) id)
  obtain ⟨env, henv, e1⟩ := exists_env (len := len) hR (i := i) (by rw [← h.1]; exact hi)
  obtain ⟨env', henv', e2⟩ := exists_env (len := len') hR' (i := i) (by rw [← h'.1, ← hsh]; exact hi)
  have hee : ∀ a ∈ L.flatten, env a = env' a := by
    intro a ha
    by_cases h1 : len a = 1
    · have k1 := henv a (hs a ha)
      have k2 := henv' a (hs' a ha)
      rw [hlen a ha] at k2
      omega
    · obtain ⟨j, w, hpl⟩ := exists_placed (len := len) (hs a ha)
      obtain ⟨q, hq, c⟩ := hpl.coord henv
      obtain ⟨q', hq', c'⟩ := (hp a ha h1 j w hpl).coord henv'
      rw [← e1] at hq
      rw [← e2, hq] at hq'
      cases hq'
      rw [c, c', hlen a ha]
  obtain ⟨v, x1, y1⟩ := h.2 env (hr hs henv)
  obtain ⟨v', x2, y2⟩ := h'.2 env' (hr hs' henv')
  unfold Tensor.atAxes at x1 x2 y1 y2
  rw [← e1] at y1
  rw [← e2] at y2
  rw [map_groupPos_congr (len' := len) (fun a ha => (hee a ha).symm) hlen, x1] at x2
  cases x2
  rw [y1, y2]

/-! ### Reductions -/

theorem self_mem_loops {len : AxisMap} {D : List Axis} (hn : D.Nodup) {env : AxisMap} (h : InRange len D env) (e0 : AxisMap)
    (he : ∀ a, a ∉ D → e0 a = env a) : env ∈ loops len D e0 := by
  have hm : D.map env ∈ (loops len D e0).map (fun e => D.map e) := by
    rw [loops_indices hn, mem_indices]
    exact inBounds_map.2 h
  obtain ⟨e, h1, h2⟩ := List.mem_map.1 hm
  have : e = env := by
    funext a
    by_cases ha : a ∈ D
    · exact List.map_inj_left.1 h2 a ha
    · rw [(mem_loops h1).1 a ha, he a ha]
  rwa [this] at h1

theorem not_mem_dropped {L R : List (List Axis)} {a : Axis} (h : a ∈ R.flatten) :
    a ∉ L.flatten.filter (fun a => a ∉ R.flatten) := fun hm => by
  have := (List.mem_filter.1 hm).2
  rw [decide_eq_true_eq] at this
  exact this h

theorem mem_dropped {L R : List (List Axis)} {a : Axis} (hL : a ∈ L.flatten) (h : a ∉ R.flatten) :
    a ∈ L.flatten.filter (fun a => a ∉ R.flatten) := List.mem_filter.2 ⟨hL, by rw [decide_eq_true_eq]; exact h⟩

theorem loops_inRange {len env e : AxisMap} {L R : List (List Axis)} (hL : L.flatten.Nodup) (henv : InRange len R.flatten env)
    (he : e ∈ loops len (L.flatten.filter (fun a => a ∉ R.flatten)) env) : InRange len L.flatten e := by
  intro a ha
  by_cases h : a ∈ R.flatten
  · rw [(mem_loops he).1 a (not_mem_dropped h)]
    exact henv a h
  · exact (mem_loops he).2 (hL.filter _) a (mem_dropped ha h)

/-- the elements that are combined, once each -/
theorem loops_values {len env : AxisMap} {L R : List (List Axis)} (hL : L.flatten.Nodup) {x : Tensor α} (hx : x.data.Nodup)
    (henv : InRange len R.flatten env) {vs : List α}
    (hv : (loops len (L.flatten.filter (fun a => a ∉ R.flatten)) env).map (x.atAxes L len) = vs.map some) :
    vs.Nodup ∧ ∀ v ∈ vs, v ∈ x.data := by
  set D := L.flatten.filter (fun a => a ∉ R.flatten) with hD
  have hmem : ∀ v, v ∈ vs → ∃ e ∈ loops len D env, x.atAxes L len e = some v := by
    intro v hv'
    have : some v ∈ vs.map some := List.mem_map.2 ⟨v, hv', rfl⟩
    rw [← hv] at this
    obtain ⟨e, h1, h2⟩ := List.mem_map.1 this
    exact ⟨e, h1, h2⟩
  constructor
  · have hn : ((loops len D env).map (fun e => D.map e)).Nodup := by
      rw [loops_indices (hL.filter _)]
      exact indices_nodup _
    have hp : (loops len D env).Pairwise (fun e e' => D.map e ≠ D.map e') := (List.pairwise_map.1 hn)
    have h2 : ((loops len D env).map (x.atAxes L len)).Nodup := by
      rw [List.Nodup, List.pairwise_map]
      refine hp.imp_of_mem ?_
      intro e e' he he' hne heq
      have r1 := loops_inRange hL henv he
      have r2 := loops_inRange hL henv he'
      have hso : ∃ v, x.atAxes L len e = some v := by
        have := List.mem_map_of_mem (f := x.atAxes L len) he
        rw [hv] at this
        obtain ⟨v, _, h⟩ := List.mem_map.1 this
        exact ⟨v, h.symm⟩
      obtain ⟨v, hv1⟩ := hso
      have := env_of_pos r1 r2 (at_inj hx hv1 (heq.symm.trans hv1))
      exact hne (List.map_congr_left (fun a ha => this a (List.mem_of_mem_filter ha)))
    rw [hv] at h2
    exact List.Nodup.of_map _ h2
  · intro v hv'
    obtain ⟨e, _, he⟩ := hmem v hv'
    unfold Tensor.atAxes at he
    rw [x.at?_of_inBounds (x.at?_some_inBounds he)] at he
    exact List.mem_of_getElem? he

/-- two reductions with the same result, which tells sets of elements apart -/
theorem Reduces.proper_eq {op : List α → Py α} {len : AxisMap} {L R R' : List (List Axis)} {x y : Tensor α}
    (hL : L.flatten.Nodup) (hR : R.flatten.Nodup) (hR' : R'.flatten.Nodup) (hs : ∀ a ∈ R.flatten, a ∈ L.flatten)
    (hs' : ∀ a ∈ R'.flatten, a ∈ L.flatten) (hpos : ∀ a ∈ L.flatten, 0 < len a) (hx : x.data.Nodup)
    (ht : TellsSets op x.data) (h : Reduces op len L R x y) (h' : Reduces op len L R' x y) :
    R.map (proper len) = R'.map (proper len) := by
  have hsh := h.1.symm.trans h'.1
  refine map_proper_of_pos hR hR' hs hs' hpos (by simpa using congrArg List.length hsh) (fun env henv => ?_)
  obtain ⟨env', henv', he'⟩ := exists_env (len := len) hR' (i := R.map (groupPos len env))
    (by rw [← hsh]; exact inBounds_groups (henv.mono hs))
  obtain ⟨vs, v, a1, a2, a3⟩ := h.2 env (henv.mono hs)
  obtain ⟨ws, w, b1, b2, b3⟩ := h'.2 env' henv'
  unfold Tensor.atAxes at a3 b3
  rw [← he', a3] at b3
  cases b3
  obtain ⟨n1, m1⟩ := loops_values hL hx (henv.mono hs) a1
  obtain ⟨n2, m2⟩ := loops_values hL hx henv' b1
  obtain ⟨u, hu1, hu⟩ : ∃ u ∈ vs, x.atAxes L len env = some u := by
    have hm := List.mem_map_of_mem (f := x.atAxes L len) (self_mem_loops (hL.filter (fun a => decide (a ∉ R.flatten)))
      (henv.mono (fun a ha => List.mem_of_mem_filter ha)) env (fun _ _ => rfl))
    rw [a1] at hm
    obtain ⟨u, h1, h2⟩ := List.mem_map.1 hm
    exact ⟨u, h1, h2.symm⟩
  have hu2 := ht vs ws v n1 n2 m1 m2 a2 b2 u hu1
  have hm : some u ∈ ws.map some := List.mem_map.2 ⟨u, hu2, rfl⟩
  rw [← b1] at hm
  obtain ⟨e, he, hxe⟩ := List.mem_map.1 hm
  have hee := env_of_pos henv (loops_inRange hL henv' he) (at_inj hx hu hxe)
  rw [he']
  refine map_groupPos_congr (fun a ha => ?_) (fun _ _ => rfl)
  rw [hee a (hs' a ha), (mem_loops he).1 a (not_mem_dropped ha)]

/-- without dropped axes: one element each -/
theorem Moves.reduces_one {op : List α → Py α} {len : AxisMap} {L R : List (List Axis)} {x y : Tensor α}
    (hone : ∀ v ∈ x.data, op [v] = .ok v) (hs : ∀ a ∈ L.flatten, a ∈ R.flatten) (h : Moves len L R x y) :
    Reduces op len L R x y := by
  refine ⟨h.1, fun env henv => ?_⟩
  obtain ⟨v, h1, h2⟩ := h.2 env (fun a ha => henv a ((List.mem_append.1 ha).elim (hs a) id))
  have hD : L.flatten.filter (fun a => a ∉ R.flatten) = [] := by
    rw [List.filter_eq_nil_iff]
    intro a ha
    rw [decide_eq_true_eq]
    exact fun h => h (hs a ha)
  refine ⟨[v], v, ?_, hone v ?_, h2⟩
  · rw [hD]
    simp only [loops, List.map_cons, List.map_nil, h1]
  · unfold Tensor.atAxes at h1
    rw [x.at?_of_inBounds (x.at?_some_inBounds h1)] at h1
    exact List.mem_of_getElem? h1

/-- two reductions that pick the element with given coordinates of the dropped axes -/
theorem proper_eq_of_pick {len : AxisMap} {L R R' : List (List Axis)} {x y : Tensor α} {base ext : AxisMap}
    (hR : R.flatten.Nodup) (hR' : R'.flatten.Nodup) (hs : ∀ a ∈ R.flatten, a ∈ L.flatten)
    (hs' : ∀ a ∈ R'.flatten, a ∈ L.flatten) (hpos : ∀ a ∈ L.flatten, 0 < len a) (hx : x.data.Nodup)
    (hsh : R.map (groupSize len) = R'.map (groupSize len))
    (hbase : InRange len L.flatten base) (hext : InRange len L.flatten ext)
    (hne : ∀ a ∈ L.flatten, len a ≠ 1 → base a ≠ ext a)
    (heq : R.map (groupPos len base) = R'.map (groupPos len base))
    (h : ∀ env, InRange len R.flatten env → ∃ v, x.atAxes L len (fun a => if a ∈ R.flatten then env a else ext a) = some v ∧
      y.atAxes R len env = some v)
    (h' : ∀ env, InRange len R'.flatten env → ∃ v, x.atAxes L len (fun a => if a ∈ R'.flatten then env a else ext a) = some v ∧
      y.atAxes R' len env = some v) : R.map (proper len) = R'.map (proper len) := by
  have hmix : ∀ {Q : List (List Axis)} {e : AxisMap}, InRange len Q.flatten e →
      InRange len L.flatten (fun a => if a ∈ Q.flatten then e a else ext a) := by
    intro Q e he a ha
    simp only
    split
    · rename_i hq; exact he a hq
    · exact hext a ha
  -- equal positions
  have key : ∀ env env', InRange len R.flatten env → InRange len R'.flatten env' →
      R.map (groupPos len env) = R'.map (groupPos len env') →
      ∀ a ∈ L.flatten, (if a ∈ R.flatten then env a else ext a) = (if a ∈ R'.flatten then env' a else ext a) := by
    intro env env' r r' e
    obtain ⟨v, a1, a2⟩ := h env r
    obtain ⟨w, b1, b2⟩ := h' env' r'
    unfold Tensor.atAxes at a1 a2 b1 b2
    rw [← e, a2] at b2
    cases b2
    exact env_of_pos (hmix r) (hmix r') (at_inj hx a1 b1)
  have hkept : ∀ a ∈ L.flatten, len a ≠ 1 → (a ∈ R.flatten ↔ a ∈ R'.flatten) := by
    intro a ha h1
    have := key base base (hbase.mono hs) (hbase.mono hs') heq a ha
    have hb := hne a ha h1
    by_cases k1 : a ∈ R.flatten <;> by_cases k2 : a ∈ R'.flatten
    · simp [k1, k2]
    · rw [if_pos k1, if_neg k2] at this; exact absurd this hb
    · rw [if_neg k1, if_pos k2] at this; exact absurd this.symm hb
    · simp [k1, k2]
  refine map_proper_of_pos hR hR' hs hs' hpos (by simpa using congrArg List.length hsh) (fun env henv => ?_)
  obtain ⟨env', henv', he'⟩ := exists_env (len := len) hR' (i := R.map (groupPos len env))
    (by rw [← hsh]; exact inBounds_groups (henv.mono hs))
  rw [he']
  refine map_groupPos_congr (fun a ha => ?_) (fun _ _ => rfl)
  by_cases h1 : len a = 1
  · have k1 := henv a (hs' a ha)
    have k2 := henv' a ha
    omega
  · have := key env env' (henv.mono hs) henv' he' a (hs' a ha)
    rw [if_pos ((hkept a (hs' a ha) h1).2 ha), if_pos ha] at this
    exact this.symm

theorem groupPos_mono {len env env' : AxisMap} {g : List Axis} (h : ∀ a ∈ g, env a ≤ env' a) :
    groupPos len env g ≤ groupPos len env' g := by
  induction g with
  | nil => exact Nat.le_refl _
  | cons a g ih =>
    rw [groupPos_cons, groupPos_cons]
    exact Nat.add_le_add (Nat.mul_le_mul_right _ (h a (List.mem_cons_self ..))) (ih (fun b hb => h b (List.mem_cons_of_mem _ hb)))

theorem groupPos_top {len env : AxisMap} {g : List Axis} (hpos : ∀ a ∈ g, 0 < len a) (h : ∀ a ∈ g, env a + 1 = len a) :
    groupPos len env g + 1 = groupSize len g := by
  induction g with
  | nil => rfl
  | cons a g ih =>
    have ih := ih (fun b hb => hpos b (List.mem_cons_of_mem _ hb)) (fun b hb => h b (List.mem_cons_of_mem _ hb))
    rw [groupPos_cons, groupSize_cons, ← h a (List.mem_cons_self ..), Nat.add_mul, Nat.add_assoc, ih]
    omega

/-- in a tensor with increasing elements the order of elements is the order of positions -/
theorem le_of_increasing [LinearOrder α] {x : Tensor α} (hx : x.data.Pairwise (· < ·)) {len env env' : AxisMap}
    {L : List (List Axis)} (hsh : x.shape = L.map (groupSize len)) {v v' : α} (h : x.atAxes L len env = some v)
    (h' : x.atAxes L len env' = some v') (hle : v ≤ v') :
    groupPos len env L.flatten ≤ groupPos len env' L.flatten := by
  unfold Tensor.atAxes at h h'
  rw [x.at?_of_inBounds (x.at?_some_inBounds h), hsh, ravel_groups] at h
  rw [x.at?_of_inBounds (x.at?_some_inBounds h'), hsh, ravel_groups] at h'
  obtain ⟨l1, e1⟩ := List.getElem?_eq_some_iff.1 h
  obtain ⟨l2, e2⟩ := List.getElem?_eq_some_iff.1 h'
  by_contra hc
  have := List.pairwise_iff_getElem.1 hx _ _ l2 l1 (by omega)
  rw [e1, e2] at this
  exact absurd hle (not_le.2 this)

/-- the element picked by a reduction: an extreme one -/
theorem Reduces.pick {op : List α → Py α} {len : AxisMap} {L R : List (List Axis)} {x y : Tensor α} {ext : AxisMap}
    (hL : L.flatten.Nodup) (hext : InRange len L.flatten ext) (h : Reduces op len L R x y)
    (hp : ∀ vs v u env e, op vs = .ok v → u ∈ vs → InRange len L.flatten e → x.atAxes L len e = some v →
      x.atAxes L len env = some u → InRange len L.flatten env → (∀ a ∈ L.flatten, env a = e a ∨ env a = ext a) → u = v)
    (hin : ∀ vs v, op vs = .ok v → v ∈ vs) :
    ∀ env, InRange len R.flatten env → ∃ v, x.atAxes L len (fun a => if a ∈ R.flatten then env a else ext a) = some v ∧
      y.atAxes R len env = some v := by
  intro env henv
  obtain ⟨vs, v, h1, h2, h3⟩ := h.2 env henv
  refine ⟨v, ?_, h3⟩
  have hr : InRange len L.flatten (fun a => if a ∈ R.flatten then env a else ext a) := by
    intro a ha
    simp only
    split
    · rename_i hq; exact henv a hq
    · exact hext a ha
  -- the coordinates of the result among the combined ones
  have hv : some v ∈ vs.map some := List.mem_map.2 ⟨v, hin vs v h2, rfl⟩
  rw [← h1] at hv
  obtain ⟨e, he, hxe⟩ := List.mem_map.1 hv
  -- the extreme ones
  have hself : (fun a => if a ∈ L.flatten.filter (fun a => a ∉ R.flatten) then ext a else env a) ∈
      loops len (L.flatten.filter (fun a => a ∉ R.flatten)) env := by
    refine self_mem_loops (hL.filter _) (fun a ha => ?_) env (fun a ha => (if_neg ha).symm)
    simp only [if_pos ha]
    exact hext a (List.mem_of_mem_filter ha)
  have hsame : ∀ a ∈ L.flatten, (if a ∈ L.flatten.filter (fun a => a ∉ R.flatten) then ext a else env a) =
      (if a ∈ R.flatten then env a else ext a) := by
    intro a ha
    by_cases hq : a ∈ R.flatten
    · rw [if_pos hq, if_neg (not_mem_dropped hq)]
    · rw [if_neg hq, if_pos (mem_dropped ha hq)]
  have hm := List.mem_map_of_mem (f := x.atAxes L len) hself
  rw [h1] at hm
  obtain ⟨u, hu1, hu2⟩ := List.mem_map.1 hm
  rw [atAxes_congr (fun _ _ => rfl) hsame] at hu2
  have hre := loops_inRange hL henv he
  have := hp vs v u _ e h2 hu1 hre hxe hu2.symm hr (fun a ha => by
    by_cases hq : a ∈ R.flatten
    · left
      simp only [if_pos hq]
      exact ((mem_loops he).1 a (not_mem_dropped hq)).symm
    · right
      simp only [if_neg hq])
  rw [← this]
  exact hu2.symm

theorem Reduces.proper_eq_largest [LinearOrder α] {op : List α → Py α} (hop : Largest op) {len : AxisMap}
    {L R R' : List (List Axis)} {x y : Tensor α}
    (hL : L.flatten.Nodup) (hR : R.flatten.Nodup) (hR' : R'.flatten.Nodup) (hs : ∀ a ∈ R.flatten, a ∈ L.flatten)
    (hs' : ∀ a ∈ R'.flatten, a ∈ L.flatten) (hpos : ∀ a ∈ L.flatten, 0 < len a) (hx : x.data.Pairwise (· < ·))
    (hsx : x.shape = L.map (groupSize len)) (h : Reduces op len L R x y) (h' : Reduces op len L R' x y) :
    R.map (proper len) = R'.map (proper len) := by
  have hnd : x.data.Nodup := hx.imp (fun h => ne_of_lt h)
  have hsh := h.1.symm.trans h'.1
  have hext : InRange len L.flatten (fun a => len a - 1) := fun a ha => by have := hpos a ha; simp only; omega
  have pick : ∀ {Q : List (List Axis)}, Reduces op len L Q x y → _ := fun {Q} hq =>
    hq.pick (ext := fun a => len a - 1) hL hext (by
      intro vs v u env e h1 h2 h3 h4 h5 h6 h7
      refine le_antisymm ((hop vs v h1).2 u h2) (not_lt.1 (fun hlt => ?_))
      have k1 := le_of_increasing hx hsx h5 h4 (le_of_lt hlt)
      have k2 : groupPos len e L.flatten ≤ groupPos len env L.flatten := groupPos_mono (fun a ha => by
        have := h3 a ha
        rcases h7 a ha with h | h <;> omega)
      have k3 : env = env ∧ x.atAxes L len env = x.atAxes L len e := by
        refine ⟨rfl, ?_⟩
        unfold Tensor.atAxes
        rw [x.at?_of_inBounds (by rw [hsx]; exact inBounds_groups h6), x.at?_of_inBounds (by rw [hsx]; exact inBounds_groups h3),
          hsx, ravel_groups, ravel_groups, show groupPos len env L.flatten = groupPos len e L.flatten by omega]
      rw [k3.2, h4] at h5
      cases h5
      exact lt_irrefl _ hlt) (fun vs v h => (hop vs v h).1)
  have hzero : ∀ {Q : List (List Axis)}, Q.map (groupPos len (fun _ => 0)) = Q.map (fun _ => 0) := fun {Q} =>
    List.map_congr_left (fun g _ => groupPos_zero (fun _ _ => rfl))
  refine proper_eq_of_pick (base := fun _ => 0) hR hR' hs hs' hpos hnd hsh hpos hext
    (fun a ha h1 => by have := hpos a ha; omega) ?_ (pick h) (pick h')
  rw [hzero, hzero]
  have hl : R.length = R'.length := by simpa using congrArg List.length hsh
  simp [hl]

theorem Reduces.proper_eq_smallest [LinearOrder α] {op : List α → Py α} (hop : Smallest op) {len : AxisMap}
    {L R R' : List (List Axis)} {x y : Tensor α}
    (hL : L.flatten.Nodup) (hR : R.flatten.Nodup) (hR' : R'.flatten.Nodup) (hs : ∀ a ∈ R.flatten, a ∈ L.flatten)
    (hs' : ∀ a ∈ R'.flatten, a ∈ L.flatten) (hpos : ∀ a ∈ L.flatten, 0 < len a) (hx : x.data.Pairwise (· < ·))
    (hsx : x.shape = L.map (groupSize len)) (h : Reduces op len L R x y) (h' : Reduces op len L R' x y) :
    R.map (proper len) = R'.map (proper len) := by
  have hnd : x.data.Nodup := hx.imp (fun h => ne_of_lt h)
  have hsh := h.1.symm.trans h'.1
  have hbase : InRange len L.flatten (fun a => len a - 1) := fun a ha => by have := hpos a ha; simp only; omega
  have pick : ∀ {Q : List (List Axis)}, Reduces op len L Q x y → _ := fun {Q} hq =>
    hq.pick (ext := fun _ => 0) hL hpos (by
      intro vs v u env e h1 h2 h3 h4 h5 h6 h7
      refine le_antisymm (not_lt.1 (fun hlt => ?_)) ((hop vs v h1).2 u h2)
      have k1 := le_of_increasing hx hsx h4 h5 (le_of_lt hlt)
      have k2 : groupPos len env L.flatten ≤ groupPos len e L.flatten := groupPos_mono (fun a ha => by
        rcases h7 a ha with h | h <;> omega)
      have k3 : x.atAxes L len env = x.atAxes L len e := by
        unfold Tensor.atAxes
        rw [x.at?_of_inBounds (by rw [hsx]; exact inBounds_groups h6), x.at?_of_inBounds (by rw [hsx]; exact inBounds_groups h3),
          hsx, ravel_groups, ravel_groups, show groupPos len env L.flatten = groupPos len e L.flatten by omega]
      rw [k3, h4] at h5
      cases h5
      exact lt_irrefl _ hlt) (fun vs v h => (hop vs v h).1)
  refine proper_eq_of_pick (base := fun a => len a - 1) hR hR' hs hs' hpos hnd hsh hbase hpos
    (fun a ha h1 => by have := hpos a ha; omega) ?_ (pick h) (pick h')
  have htop : ∀ {Q : List (List Axis)}, (∀ a ∈ Q.flatten, a ∈ L.flatten) →
      Q.map (groupPos len (fun a => len a - 1)) = (Q.map (groupSize len)).map (fun n => n - 1) := by
    intro Q hq
    rw [List.map_map]
    refine List.map_congr_left (fun g hg => ?_)
    have hp : ∀ a ∈ g, 0 < len a := fun a ha => hpos a (hq a (List.mem_flatten.2 ⟨g, hg, ha⟩))
    have := groupPos_top (len := len) (env := fun a => len a - 1) hp (fun a ha => by have := hp a ha; omega)
    simp only [Function.comp]
    omega
  rw [htop hs, htop hs', hsh]

/-! ### Sums of powers of two -/

/-- the powers of two, one after the other -/
def powers (shape : List Nat) : Tensor ℤ := ⟨shape, (List.range shape.prod).map (fun k => 2 ^ k), by simp⟩

theorem powers_nodup (shape : List Nat) : (powers shape).data.Nodup := by
  refine List.nodup_range.map (fun i j h => ?_)
  have h' : ((2 ^ i : ℕ) : ℤ) = ((2 ^ j : ℕ) : ℤ) := by push_cast; exact h
  exact Nat.pow_right_injective (le_refl 2) (by exact_mod_cast h')

theorem tellsSets_sum {op : List ℤ → Py ℤ} (hop : ∀ vs, op vs = .ok vs.sum) (n : Nat) :
    TellsSets op ((List.range n).map (fun k => (2 : ℤ) ^ k)) := by
  have key : ∀ vs : List ℤ, vs.Nodup → (∀ a ∈ vs, a ∈ (List.range n).map (fun k => (2 : ℤ) ^ k)) →
      ∃ s : Finset ℕ, vs.sum = ((∑ i ∈ s, 2 ^ i : ℕ) : ℤ) ∧ ∀ a, a ∈ vs ↔ ∃ i ∈ s, a = 2 ^ i := by
    intro vs
    induction vs with
    | nil => exact fun _ _ => ⟨∅, by simp, by simp⟩
    | cons a vs ih =>
      intro hn hm
      rw [List.nodup_cons] at hn
      obtain ⟨s, h1, h2⟩ := ih hn.2 (fun b hb => hm b (List.mem_cons_of_mem _ hb))
      obtain ⟨k, -, hk⟩ := List.mem_map.1 (hm a (List.mem_cons_self ..))
      have hks : k ∉ s := fun hc => hn.1 ((h2 a).2 ⟨k, hc, hk.symm⟩)
      refine ⟨insert k s, ?_, fun b => ?_⟩
      · rw [List.sum_cons, h1, Finset.sum_insert hks, ← hk]
        push_cast
        rfl
      · rw [List.mem_cons, h2]
        constructor
        · rintro (rfl | ⟨i, hi, rfl⟩)
          · exact ⟨k, Finset.mem_insert_self _ _, hk.symm⟩
          · exact ⟨i, Finset.mem_insert_of_mem hi, rfl⟩
        · rintro ⟨i, hi, rfl⟩
          rcases Finset.mem_insert.1 hi with rfl | hi
          · exact .inl hk
          · exact .inr ⟨i, hi, rfl⟩
  intro vs ws v n1 n2 m1 m2 e1 e2 a ha
  obtain ⟨s, h1, h2⟩ := key vs n1 m1
  obtain ⟨t, h3, h4⟩ := key ws n2 m2
  rw [hop] at e1 e2
  have : vs.sum = ws.sum := by
    cases e1
    exact (Except.ok.inj e2).symm
  rw [h1, h3] at this
  have hst := Finset.geomSum_injective (le_refl 2) (Nat.cast_injective this)
  rw [h2, hst] at ha
  exact (h4 a).2 ha

/-! ### From groups back to patterns -/

theorem flatMap_ell_inj {E : List Axis} (hE : E ≠ []) {g g' : List Axis} (hg : ∀ a ∈ g, a ∉ E) (hg' : ∀ a ∈ g', a ∉ E)
    (h : g.flatMap (fun a => if a = .str ellipsisStr then E else [a]) =
      g'.flatMap (fun a => if a = .str ellipsisStr then E else [a])) : g = g' := by
  obtain ⟨e, E', rfl⟩ := List.exists_cons_of_ne_nil hE
  induction g generalizing g' with
  | nil =>
    cases g' with
    | nil => rfl
    | cons a g' =>
      by_cases ha : a = .str ellipsisStr <;> simp [ha] at h
  | cons a g ih =>
    cases g' with
    | nil => by_cases ha : a = .str ellipsisStr <;> simp [ha] at h
    | cons b g' =>
      have hg1 : ∀ a ∈ g, a ∉ e :: E' := fun c hc => hg c (List.mem_cons_of_mem _ hc)
      have hg2 : ∀ a ∈ g', a ∉ e :: E' := fun c hc => hg' c (List.mem_cons_of_mem _ hc)
      rw [List.flatMap_cons, List.flatMap_cons] at h
      by_cases ha : a = .str ellipsisStr <;> by_cases hb : b = .str ellipsisStr
      · rw [if_pos ha, if_pos hb] at h
        rw [ha, hb, ih hg1 hg2 (List.append_cancel_left h)]
      · rw [if_pos ha, if_neg hb] at h
        simp only [List.cons_append, List.cons.injEq] at h
        exact absurd (by rw [h.1]; simp) (hg' b (List.mem_cons_self ..))
      · rw [if_neg ha, if_pos hb] at h
        simp only [List.cons_append, List.cons.injEq] at h
        exact absurd (by rw [h.1]; simp) (hg a (List.mem_cons_self ..))
      · rw [if_neg ha, if_neg hb] at h
        simp only [List.cons_append, List.nil_append, List.cons.injEq] at h
        rw [h.1, ih hg1 hg2 h.2]

theorem spread_inj {E : List Axis} (hE : 2 ≤ E.length) {c c' : List CompAxis}
    (hc : ∀ g, CompAxis.group g ∈ c → ∀ a ∈ g, a ∉ E) (hc' : ∀ g, CompAxis.group g ∈ c' → ∀ a ∈ g, a ∉ E)
    (h : spread E c = spread E c') : c = c' := by
  obtain ⟨e, f, E', rfl⟩ : ∃ e f E', E = e :: f :: E' := by
    match E, hE with
    | e :: f :: E', _ => exact ⟨e, f, E', rfl⟩
  have no : ∀ {g : List Axis}, (∀ a ∈ g, a ∉ e :: f :: E') →
      ¬ [e] = g.flatMap (fun a => if a = .str ellipsisStr then e :: f :: E' else [a]) := by
    intro g hg heq
    have hm : e ∈ g.flatMap (fun a => if a = .str ellipsisStr then e :: f :: E' else [a]) := by rw [← heq]; simp
    obtain ⟨a, ha, hea⟩ := List.mem_flatMap.1 hm
    split at hea
    · rename_i hmark
      have hl : (if a = Axis.str ellipsisStr then e :: f :: E' else [a]).length ≤
          (g.flatMap (fun a => if a = .str ellipsisStr then e :: f :: E' else [a])).length := by
        obtain ⟨p, q, rfl⟩ := List.append_of_mem ha
        rw [List.flatMap_append, List.flatMap_cons]
        simp only [List.length_append]
        omega
      rw [if_pos hmark, ← heq] at hl
      simp at hl
    · rw [List.mem_singleton] at hea
      exact hg a ha (by rw [← hea]; simp)
  induction c generalizing c' with
  | nil =>
    cases c' with
    | nil => rfl
    | cons d c' => cases d <;> simp [spread] at h
  | cons d c ih =>
    cases c' with
    | nil => cases d <;> simp [spread] at h
    | cons d' c' =>
      have h1 : ∀ g, CompAxis.group g ∈ c → ∀ a ∈ g, a ∉ e :: f :: E' := fun g hg => hc g (List.mem_cons_of_mem _ hg)
      have h2 : ∀ g, CompAxis.group g ∈ c' → ∀ a ∈ g, a ∉ e :: f :: E' := fun g hg => hc' g (List.mem_cons_of_mem _ hg)
      cases d with
      | ell =>
        cases d' with
        | ell =>
          simp only [spread] at h
          rw [ih h1 h2 (List.append_cancel_left h)]
        | group g' =>
          simp only [spread, List.map_cons, List.cons_append, List.cons.injEq] at h
          exact absurd h.1 (no (hc' g' (List.mem_cons_self ..)))
      | group g =>
        cases d' with
        | ell =>
          simp only [spread, List.map_cons, List.cons_append, List.cons.injEq] at h
          exact absurd h.1.symm (no (hc g (List.mem_cons_self ..)))
        | group g' =>
          simp only [spread, List.cons.injEq] at h
          rw [flatMap_ell_inj (by simp) (hc g (List.mem_cons_self ..)) (hc' g' (List.mem_cons_self ..)) h.1, ih h1 h2 h.2]

section
variable [PyUnicode]

/-- the left side and the sizes determine the groups of the left side and their lengths -/
theorem Accepted.same_left {op op' : OpKind} {p p' : Str} {kw : List (Str × Size)} {shape : List Nat} {GL GR GR' : List Elem}
    {L R L' R' : List (List Axis)} {len len' : AxisMap} (hkw : IntKw kw) (h : Accepted op p kw shape GL GR L R len)
    (h' : Accepted op' p' kw shape GL GR' L' R' len') : L' = L ∧ ∀ a ∈ L.flatten, len' a = len a := by
  have hL : L' = L := by
    obtain ⟨_, l, r, _, hL, hR⟩ := isPattern_split h.pattern
    obtain ⟨n, hn, rfl, rfl⟩ := (groups_iff hL (sidesOK_ellipsis h.prepared.sides) _ L R).1 h.prepared.groups
    obtain ⟨m, hm, rfl, rfl⟩ := (groups_iff hL (sidesOK_ellipsis h'.prepared.sides) _ L' R').1 h'.prepared.groups
    rw [hn] at hm
    cases hm
    rfl
  subst hL
  refine ⟨rfl, fun a ha => ?_⟩
  obtain ⟨ex, _, h1, h2, _, _, h3, _⟩ := h.ex hkw
  obtain ⟨ex', _, h1', h2', _, _, h3', _⟩ := h'.ex hkw
  have e1 := h3 a (by rw [h1]; exact List.mem_append_left _ ha)
  have e2 := h3' a (by rw [h1']; exact List.mem_append_left _ ha)
  rw [h1] at e1
  rw [h1', e1] at e2
  exact_mod_cast e2.symm

theorem denote_not_ell {r : Str} {G : List Elem} (h : IsSide false false r G) (n : Nat) :
    ∀ g, CompAxis.group g ∈ denote 1 0 G → ∀ a ∈ g, a ∉ ellAxes n := by
  intro g hg a ha
  have hm : a ∈ wordsAxes 1 0 (sideWords G) := by
    rw [← denote_axes]
    exact List.mem_flatMap.2 ⟨_, hg, ha⟩
  have e := side_no_ell h
  cases a with
  | anon sd i v => rw [mem_ellAxes]; rintro ⟨j, _, hj⟩; cases hj
  | str s =>
    obtain ⟨w, hw, ⟨_, rfl⟩ | ⟨_, _, rfl⟩⟩ := str_mem_wordsAxes.1 hm
    · exact marker_not_mem_ellAxes n
    · exact name_not_mem_ellAxes (e _ hw)

theorem spread_free {r : Str} {G : List Elem} (h : IsSide false false r G) (hd : dots ∉ sideWords G) (ell ell' : List Axis) :
    spread ell (denote 1 0 G) = spread ell' (denote 1 0 G) := by
  have hp : ∀ ws, Elem.paren ws ∈ G → dots ∉ ws := fun ws hws hm => hd (List.mem_flatMap.2 ⟨_, hws, hm⟩)
  have hb : CompAxis.ell ∉ denote 1 0 G := fun hm => hd (List.mem_flatMap.2 ⟨_, denote_ell.1 hm, by simp [Elem.words]⟩)
  have hg := denote_noGroupEll (side := 1) (k := 0) (side_no_ell h) hp
  rw [← axes_eq_spread hg hb ell, ← axes_eq_spread hg hb ell']

/-- the groups of the right side determine its composition, if the ellipsis stands for two axes or more -/
theorem Accepted.same_right {op op' : OpKind} {p p' : Str} {kw kw' : List (Str × Size)} {shape : List Nat}
    {GL GR GR' : List Elem} {L R : List (List Axis)} {len len' : AxisMap} (h : Accepted op p kw shape GL GR L R len)
    (h' : Accepted op' p' kw' shape GL GR' L R len') (hdots : dots ∈ sideWords GL → GL.length < shape.length) :
    denote 1 0 GR = denote 1 0 GR' := by
  obtain ⟨_, l, r, _, hL, hR⟩ := isPattern_split h.pattern
  obtain ⟨_, l', r', _, hL', hR'⟩ := isPattern_split h'.pattern
  have hE := sidesOK_ellipsis h.prepared.sides
  have hE' := sidesOK_ellipsis h'.prepared.sides
  obtain ⟨n, hn, -, hRn⟩ := (groups_iff hL hE _ L R).1 h.prepared.groups
  obtain ⟨m, hm, -, hRm⟩ := (groups_iff hL hE' _ L R).1 h'.prepared.groups
  rw [hn] at hm
  cases hm
  have he : spread (ellAxes n) (denote 1 0 GR) = spread (ellAxes n) (denote 1 0 GR') := hRn.symm.trans hRm
  by_cases hd : dots ∈ sideWords GL
  · refine spread_inj (E := ellAxes n) ?_ (denote_not_ell hR n) (denote_not_ell hR' n) he
    have := hdots hd
    unfold ellCount at hn
    rw [if_pos hd, if_neg (by omega)] at hn
    cases hn
    have : 1 ≤ GL.length := by
      rcases GL with _ | ⟨e, G⟩
      · simp [sideWords] at hd
      · simp
    simp only [ellAxes, List.length_map, List.length_range]
    omega
  · rw [spread_free hR (fun hm => hd (hE.1 hm)) _ (ellAxes 2), spread_free hR' (fun hm => hd (hE'.1 hm)) _ (ellAxes 2)] at he
    exact spread_inj (E := ellAxes 2) (by simp [ellAxes]) (denote_not_ell hR 2) (denote_not_ell hR' 2) he

/-- Right sides with the same composition: what is accepted with one is accepted with the other. -/
theorem Accepted.replace {op : OpKind} {p p' : Str} {kw : List (Str × Size)} {shape : List Nat}
    {GL GR GR' : List Elem} {L R : List (List Axis)} {len : AxisMap} (h : Accepted op p kw shape GL GR L R len)
    (hp : IsPattern p' GL GR') (hs : SidesOK op GL GR' (kw.map Prod.fst)) (hr : NamesWithin GR GL)
    (he : denote 1 0 GR = denote 1 0 GR') : Accepted op p' kw shape GL GR' L R len := by
  refine ⟨hp, ⟨hs, fun n hn => ?_, ?_, h.prepared.unknowns⟩, h.fits, h.determinate⟩
  · obtain ⟨h1, h2⟩ := h.prepared.keywords n hn
    refine ⟨h1, List.mem_append_left _ ((List.mem_append.1 h2).elim id (fun hm => hr n hm (isName_not_number false h1)))⟩
  · obtain ⟨n, h1, h2, h3, h4⟩ := h.prepared.groups
    exact ⟨n, h1, h2, by rw [h3, he], h4⟩

end

end Einops
