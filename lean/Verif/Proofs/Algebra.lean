import Verif.Proofs.Calls

/-! Moves and reductions: composition, inversion, relabelling of axes. -/

namespace Einops

universe u
variable {α : Type u}

/-! ### loops in another order -/

theorem flatMap_swap {β γ δ : Type*} (l : List β) (m : List γ) (f : β → γ → List δ) :
    (l.flatMap fun i => m.flatMap fun j => f i j).Perm (m.flatMap fun j => l.flatMap fun i => f i j) := by
  induction l with
  | nil => simp
  | cons a l ih =>
    simp only [List.flatMap_cons]
    exact (ih.append_left _).trans (List.flatMap_append_perm m (f a) _)

theorem setCoord_comm {env : AxisMap} {a c : Axis} (h : a ≠ c) (i j : Nat) :
    setCoord (setCoord env a i) c j = setCoord (setCoord env c j) a i := by
  funext d
  unfold setCoord
  by_cases h1 : d = a
  · subst h1; simp [h]
  · simp [h1]

theorem loops_perm (len : AxisMap) {D D' : List Axis} (h : D.Perm D') (hn : D.Nodup) (env : AxisMap) :
    (loops len D env).Perm (loops len D' env) := by
  induction h generalizing env with
  | nil => exact .refl _
  | cons a h ih =>
    rw [List.nodup_cons] at hn
    simp only [loops]
    exact List.Perm.flatMap_left _ (fun i _ => ih hn.2 _)
  | swap a c D =>
    simp only [List.nodup_cons, List.mem_cons, not_or] at hn
    simp only [loops]
    refine (flatMap_swap _ _ _).trans ?_
    apply List.Perm.of_eq
    congr 1
    funext i
    congr 1
    funext j
    rw [setCoord_comm hn.1.1]
  | trans h1 h2 ih1 ih2 => exact (ih1 hn env).trans (ih2 (h1.nodup_iff.1 hn) env)

/-- the data of a tensor, read in the order of the axes of its dimensions -/
theorem data_eq_loops {len : AxisMap} {L : List (List Axis)} (hn : L.flatten.Nodup) {x : Tensor α}
    (hx : x.shape = L.map (groupSize len)) (env : AxisMap) :
    x.data.map some = (loops len L.flatten env).map (x.atAxes L len) := by
  obtain ⟨t, _, ht, hd⟩ := x.withShape_ok (s := L.flatten.map len) (by rw [hx, ← groupSize_flatten]; rfl)
  have h1 : (loops len L.flatten env).map (x.atAxes L len) =
      (loops len L.flatten env).map (fun e => t.at? (L.flatten.map e)) := by
    apply List.map_congr_left
    intro e he
    exact (at_split hx ht hd ((mem_loops he).2 hn)).symm
  rw [h1, show (fun e : AxisMap => t.at? (L.flatten.map e)) = t.at? ∘ (fun e => L.flatten.map e) from rfl,
    ← List.map_map, loops_indices hn, ← ht, ← hd]
  apply List.ext_getElem?
  intro k
  by_cases hk : k < t.shape.prod
  · obtain ⟨i, hi, rfl⟩ := ravel_surj hk
    rw [List.getElem?_map, List.getElem?_map, indices_ravel hi]
    have hlt : ravel t.shape i < t.data.length := by rw [t.wf]; exact hk
    simp [Tensor.at?, hi, hlt]
  · rw [List.getElem?_eq_none (by simp only [List.length_map, t.wf]; omega),
      List.getElem?_eq_none (by simp only [List.length_map, indices_length]; omega)]

theorem perm_of_same {A B : List Axis} (hA : A.Nodup) (hB : B.Nodup) (h : ∀ a, a ∈ A ↔ a ∈ B) : A.Perm B :=
  (List.perm_ext_iff_of_nodup hA hB).2 h

/-- A move between the same axes permutes the elements. -/
theorem Moves.perm {len : AxisMap} {L R : List (List Axis)} {x y : Tensor α} (hL : L.flatten.Nodup)
    (hR : R.flatten.Nodup) (h : ∀ a, a ∈ L.flatten ↔ a ∈ R.flatten) (hx : x.shape = L.map (groupSize len))
    (hm : Moves len L R x y) : y.data.Perm x.data := by
  have h1 := data_eq_loops hL hx (fun _ => 0)
  have h2 := data_eq_loops hR hm.1 (fun _ => 0)
  have h3 : (loops len R.flatten (fun _ => 0)).map (y.atAxes R len) =
      (loops len R.flatten (fun _ => 0)).map (x.atAxes L len) := by
    apply List.map_congr_left
    intro e he
    have hr := (mem_loops he).2 hR
    obtain ⟨v, hv1, hv2⟩ := hm.2 e (fun a ha => by
      rcases List.mem_append.1 ha with ha | ha
      · exact hr a ((h a).1 ha)
      · exact hr a ha)
    rw [hv1, hv2]
  have h4 : (y.data.map some).Perm (x.data.map some) := by
    rw [h1, h2, h3]
    exact (loops_perm len (perm_of_same hR hL (fun a => (h a).symm)) hR _).map _
  have h5 := h4.filterMap id
  simpa using h5

/-! ### composition -/

theorem Moves.symm {len : AxisMap} {L R : List (List Axis)} {x y : Tensor α} (hx : x.shape = L.map (groupSize len))
    (h : Moves len L R x y) : Moves len R L y x := by
  refine ⟨hx, fun env henv => ?_⟩
  obtain ⟨v, h1, h2⟩ := h.2 env (fun a ha => henv a (by
    rw [List.mem_append] at ha ⊢; exact ha.symm))
  exact ⟨v, h2, h1⟩

theorem Moves.trans {len : AxisMap} {L M R : List (List Axis)} {x y z : Tensor α}
    (hM : ∀ a ∈ M.flatten, a ∈ R.flatten) (h1 : Moves len L M x y) (h2 : Moves len M R y z) : Moves len L R x z := by
  refine ⟨h2.1, fun env henv => ?_⟩
  have hl : ∀ a ∈ L.flatten, env a < len a := fun a ha => henv a (List.mem_append_left _ ha)
  have hr : ∀ a ∈ R.flatten, env a < len a := fun a ha => henv a (List.mem_append_right _ ha)
  have hm : ∀ a ∈ M.flatten, env a < len a := fun a ha => hr a (hM a ha)
  obtain ⟨v, h3, h4⟩ := h1.2 env (fun a ha => (List.mem_append.1 ha).elim (hl a) (hm a))
  obtain ⟨w, h5, h6⟩ := h2.2 env (fun a ha => (List.mem_append.1 ha).elim (hm a) (hr a))
  rw [h4] at h5
  cases h5
  exact ⟨v, h3, h6⟩

/-- move (without new axes), then reduce -/
theorem Moves.reduces {op : List α → Py α} {len : AxisMap} {L M R : List (List Axis)} {x y z : Tensor α}
    (hop : ∀ vs ws : List α, vs.Perm ws → op vs = op ws) (hL : L.flatten.Nodup) (hM : M.flatten.Nodup)
    (hLM : ∀ a, a ∈ L.flatten ↔ a ∈ M.flatten)
    (h1 : Moves len L M x y) (h2 : Reduces op len M R y z) : Reduces op len L R x z := by
  refine ⟨h2.1, fun env henv => ?_⟩
  obtain ⟨vs, v, h3, h4, h5⟩ := h2.2 env henv
  have hval : ∀ e ∈ loops len (M.flatten.filter (fun a => a ∉ R.flatten)) env, y.atAxes M len e = x.atAxes L len e := by
    intro e he
    have hr : InRange len M.flatten e := by
      intro a ha
      obtain ⟨h6, h7⟩ := mem_loops he
      by_cases hD : a ∈ M.flatten.filter (fun a => a ∉ R.flatten)
      · exact h7 (hM.filter _) a hD
      · rw [h6 a hD]
        simp only [List.mem_filter, decide_eq_true_eq, not_and, not_not] at hD
        exact henv a (hD ha)
    obtain ⟨w, h6, h7⟩ := h1.2 e (fun a ha => (List.mem_append.1 ha).elim (fun h => hr a ((hLM a).1 h)) (hr a))
    rw [h6, h7]
  rw [List.map_congr_left hval] at h3
  have hperm : (L.flatten.filter (fun a => a ∉ R.flatten)).Perm (M.flatten.filter (fun a => a ∉ R.flatten)) :=
    (perm_of_same hL hM hLM).filter _
  have hp := (loops_perm len hperm (hL.filter _) env).map (x.atAxes L len)
  rw [h3] at hp
  have hws := hp.filterMap id
  obtain ⟨ws, hws⟩ : ∃ ws : List α, (loops len (L.flatten.filter (fun a => a ∉ R.flatten)) env).map (x.atAxes L len) = ws.map some := by
    apply exists_values
    intro e he
    have := hp.subset (List.mem_map.2 ⟨e, he, rfl⟩)
    obtain ⟨w, _, hw⟩ := List.mem_map.1 this
    exact ⟨w, hw.symm⟩
  rw [hws] at hp
  have hpw : ws.Perm vs := by simpa using hp.filterMap id
  exact ⟨ws, v, hws, by rw [hop _ _ hpw, h4], h5⟩

/-- reduce, then move (without new axes) -/
theorem Reduces.moves {op : List α → Py α} {len : AxisMap} {L M R : List (List Axis)} {x y z : Tensor α}
    (hMR : ∀ a, a ∈ M.flatten ↔ a ∈ R.flatten)
    (h1 : Reduces op len L M x y) (h2 : Moves len M R y z) : Reduces op len L R x z := by
  refine ⟨h2.1, fun env henv => ?_⟩
  have hM : InRange len M.flatten env := fun a ha => henv a ((hMR a).1 ha)
  obtain ⟨vs, v, h3, h4, h5⟩ := h1.2 env hM
  obtain ⟨w, h6, h7⟩ := h2.2 env (fun a ha => (List.mem_append.1 ha).elim (hM a) (henv a))
  rw [h5] at h6
  cases h6
  have hf : L.flatten.filter (fun a => decide (a ∉ M.flatten)) = L.flatten.filter (fun a => decide (a ∉ R.flatten)) := by
    apply List.filter_congr
    intro a _
    simp only [hMR a]
  rw [hf] at h3
  exact ⟨vs, v, h3, h4, h7⟩

/-- two reductions are one -/
theorem Reduces.trans {op : List α → Py α} {len : AxisMap} {L M R : List (List Axis)} {x y z : Tensor α}
    (hop : FoldLaw op) (hperm : ∀ vs ws : List α, vs.Perm ws → op vs = op ws)
    (hL : L.flatten.Nodup) (hM : M.flatten.Nodup)
    (hML : ∀ a ∈ M.flatten, a ∈ L.flatten) (hRM : ∀ a ∈ R.flatten, a ∈ M.flatten)
    (h1 : Reduces op len L M x y) (h2 : Reduces op len M R y z) : Reduces op len L R x z := by
  refine ⟨h2.1, fun env henv => ?_⟩
  obtain ⟨us, v, h3, h4, h5⟩ := h2.2 env henv
  set D1 := L.flatten.filter (fun a => decide (a ∉ M.flatten)) with hD1
  set D2 := M.flatten.filter (fun a => decide (a ∉ R.flatten)) with hD2
  set D := L.flatten.filter (fun a => decide (a ∉ R.flatten)) with hD
  have hnd : (D2 ++ D1).Nodup := by
    rw [List.nodup_append]
    refine ⟨hM.filter _, hL.filter _, ?_⟩
    rintro a ha c hc rfl
    simp only [hD1, hD2, List.mem_filter, decide_eq_true_eq] at ha hc
    exact hc.2 ha.1
  have hpD : D.Perm (D2 ++ D1) := by
    apply perm_of_same (hL.filter _) hnd
    intro a
    simp only [hD, hD1, hD2, List.mem_append, List.mem_filter, decide_eq_true_eq]
    constructor
    · rintro ⟨h6, h7⟩
      by_cases hm : a ∈ M.flatten
      · exact .inl ⟨hm, h7⟩
      · exact .inr ⟨h6, hm⟩
    · rintro (⟨h6, h7⟩ | ⟨h6, h7⟩)
      · exact ⟨hML a h6, h7⟩
      · exact ⟨h6, fun h => h7 (hRM a h)⟩
  have hr : ∀ e ∈ loops len D2 env, InRange len M.flatten e := by
    intro e he a ha
    obtain ⟨h6, h7⟩ := mem_loops he
    by_cases hDa : a ∈ D2
    · exact h7 (hM.filter _) a hDa
    · rw [h6 a hDa]
      simp only [hD2, List.mem_filter, decide_eq_true_eq, not_and, not_not] at hDa
      exact henv a (hDa ha)
  -- values of the nested loops
  have hvals : ∀ e ∈ loops len (D2 ++ D1) env, ∃ w, x.atAxes L len e = some w := by
    intro e he
    rw [loops_append] at he
    obtain ⟨e2, he2, he⟩ := List.mem_flatMap.1 he
    obtain ⟨vs, _, h6, _, _⟩ := h1.2 e2 (hr e2 he2)
    have : x.atAxes L len e ∈ vs.map some := by rw [← h6]; exact List.mem_map.2 ⟨e, he, rfl⟩
    obtain ⟨w, _, hw⟩ := List.mem_map.1 this
    exact ⟨w, hw.symm⟩
  obtain ⟨ws, hws⟩ := exists_values hvals
  obtain ⟨vss, h6, h7, h8⟩ := values_nested hws
  have hmap : mapE op vss = .ok us := by
    rw [mapE_ok_iff]
    have h9 : (loops len D2 env).map (fun e => y.atAxes M len e) = us.map some := h3
    have key : ∀ (es : List AxisMap) (vss : List (List α)) (us : List α),
        (∀ e ∈ es, InRange len M.flatten e) →
        es.map (fun e => (loops len D1 e).map (x.atAxes L len)) = vss.map (List.map some) →
        es.map (fun e => y.atAxes M len e) = us.map some → vss.map op = us.map .ok := by
      intro es
      induction es with
      | nil =>
        intro vss us _ ha hb
        cases vss with
        | nil => cases us with
          | nil => rfl
          | cons => simp at hb
        | cons => simp at ha
      | cons e es ih =>
        intro vss us hin ha hb
        cases vss with
        | nil => simp at ha
        | cons vs vss =>
          cases us with
          | nil => simp at hb
          | cons u us =>
            simp only [List.map_cons, List.cons.injEq] at ha hb ⊢
            refine ⟨?_, ih vss us (fun e he => hin e (by simp [he])) ha.2 hb.2⟩
            obtain ⟨vs', v', h10, h11, h12⟩ := h1.2 e (hin e (by simp))
            rw [hb.1] at h12
            cases h12
            rw [ha.1] at h10
            rw [some_map_inj h10, h11]
    exact key _ _ _ hr h6 h9
  have hop' := hop.stages vss _ h8
  rw [hmap, ← h7] at hop'
  simp only [Except.bind] at hop'
  -- back to the order of the left side
  have hp := (loops_perm len hpD (hL.filter _) env).map (x.atAxes L len)
  rw [hws] at hp
  obtain ⟨ws', hws'⟩ : ∃ ws : List α, (loops len D env).map (x.atAxes L len) = ws.map some := by
    apply exists_values
    intro e he
    have := hp.subset (List.mem_map.2 ⟨e, he, rfl⟩)
    obtain ⟨w, _, hw⟩ := List.mem_map.1 this
    exact ⟨w, hw.symm⟩
  rw [hws'] at hp
  have hpw : ws'.Perm ws := by simpa using hp.filterMap id
  exact ⟨ws', v, hws', by rw [hperm _ _ hpw, ← hop', h4], h5⟩

/-- copy along new axes, then reduce them -/
theorem Moves.reduce_back {op : List α → Py α} {g : α → α} {len : AxisMap} {L R : List (List Axis)} {x y z : Tensor α}
    (hop : ∀ v, op (List.replicate (groupSize len (R.flatten.filter (fun a => a ∉ L.flatten))) v) = .ok (g v))
    (hR : R.flatten.Nodup) (hx : x.shape = L.map (groupSize len))
    (h1 : Moves len L R x y) (h2 : Reduces op len R L y z) :
    ∀ env, InRange len L.flatten env → ∃ v, x.atAxes L len env = some v ∧ z.atAxes L len env = some (g v) := by
  intro env henv
  obtain ⟨vs, w, h3, h4, h5⟩ := h2.2 env henv
  obtain ⟨v, hv⟩ := x.at?_isSome (show inBounds (L.map (groupPos len env)) x.shape = true by
    rw [hx]; exact inBounds_groups henv)
  have hv' : x.atAxes L len env = some v := hv
  have h6 : (loops len (R.flatten.filter (fun a => decide (a ∉ L.flatten))) env).map (y.atAxes R len) =
      (loops len (R.flatten.filter (fun a => decide (a ∉ L.flatten))) env).map (fun _ => some v) := by
    apply List.map_congr_left
    intro e he
    obtain ⟨h7, h8⟩ := mem_loops he
    have h8 := h8 (hR.filter _)
    have hL : ∀ a ∈ L.flatten, e a = env a := by
      intro a ha
      apply h7
      simp only [List.mem_filter, decide_eq_true_eq, not_and, not_not]
      exact fun _ => ha
    have hr : InRange len (L.flatten ++ R.flatten) e := by
      intro a ha
      by_cases haL : a ∈ L.flatten
      · rw [hL a haL]; exact henv a haL
      · exact h8 a (List.mem_filter.2 ⟨(List.mem_append.1 ha).resolve_left haL, by simpa using haL⟩)
    obtain ⟨u, h9, h10⟩ := h1.2 e hr
    rw [h10, ← h9, ← hv']
    exact atAxes_congr (fun _ _ => rfl) hL
  rw [h6, List.map_const', loops_length] at h3
  have h7 : vs = List.replicate (groupSize len (R.flatten.filter (fun a => decide (a ∉ L.flatten)))) v := by
    apply some_map_inj
    rw [← h3, List.map_replicate]
  rw [h7, hop v] at h4
  cases h4
  exact ⟨v, hv', h5⟩

/-! ### relabelling of axes -/

/-- rename the axes of all groups -/
def relabel (φ : Axis → Axis) (L : List (List Axis)) : List (List Axis) := L.map (List.map φ)

theorem flatten_relabel (φ : Axis → Axis) (L : List (List Axis)) : (relabel φ L).flatten = L.flatten.map φ := by
  unfold relabel
  rw [List.map_flatten]

theorem relabel_inverse {φ ψ : Axis → Axis} {L : List (List Axis)} (h : ∀ a ∈ L.flatten, ψ (φ a) = a) :
    relabel ψ (relabel φ L) = L := by
  unfold relabel
  rw [List.map_map]
  conv_rhs => rw [← List.map_id L]
  apply List.map_congr_left
  intro g hg
  simp only [Function.comp, List.map_map, id]
  conv_rhs => rw [← List.map_id g]
  apply List.map_congr_left
  intro a ha
  exact h a (List.mem_flatten.2 ⟨g, hg, ha⟩)

theorem exists_inverse {φ : Axis → Axis} {A : List Axis} (h : ∀ a ∈ A, ∀ c ∈ A, φ a = φ c → a = c) :
    ∃ ψ : Axis → Axis, ∀ a ∈ A, ψ (φ a) = a := by
  classical
  refine ⟨fun d => if hd : ∃ a ∈ A, φ a = d then hd.choose else d, fun a ha => ?_⟩
  have hex : ∃ c ∈ A, φ c = φ a := ⟨a, ha, rfl⟩
  show (if hd : ∃ c ∈ A, φ c = φ a then hd.choose else φ a) = a
  rw [dif_pos hex]
  exact h _ hex.choose_spec.1 _ ha hex.choose_spec.2

theorem groupSize_relabel {φ : Axis → Axis} {len len' : AxisMap} {g : List Axis} (h : ∀ a ∈ g, len a = len' (φ a)) :
    groupSize len' (g.map φ) = groupSize len g := by
  unfold groupSize
  rw [List.map_map]
  congr 1
  exact List.map_congr_left (fun a ha => (h a ha).symm)

theorem map_groupSize_relabel {φ : Axis → Axis} {len len' : AxisMap} {L : List (List Axis)}
    (h : ∀ a ∈ L.flatten, len a = len' (φ a)) : (relabel φ L).map (groupSize len') = L.map (groupSize len) := by
  unfold relabel
  rw [List.map_map]
  apply List.map_congr_left
  intro g hg
  exact groupSize_relabel (fun a ha => h a (List.mem_flatten.2 ⟨g, hg, ha⟩))

theorem groupPos_relabel {φ : Axis → Axis} {len len' env env' : AxisMap} {g : List Axis}
    (h : ∀ a ∈ g, len a = len' (φ a)) (he : ∀ a ∈ g, env a = env' (φ a)) :
    groupPos len' env' (g.map φ) = groupPos len env g := by
  rw [← ravel_map, ← ravel_map, List.map_map, List.map_map]
  congr 1
  · exact List.map_congr_left (fun a ha => (h a ha).symm)
  · exact List.map_congr_left (fun a ha => (he a ha).symm)

theorem atAxes_relabel {φ : Axis → Axis} {len len' env env' : AxisMap} {L : List (List Axis)} (x : Tensor α)
    (h : ∀ a ∈ L.flatten, len a = len' (φ a)) (he : ∀ a ∈ L.flatten, env a = env' (φ a)) :
    x.atAxes (relabel φ L) len' env' = x.atAxes L len env := by
  unfold Tensor.atAxes relabel
  rw [List.map_map]
  congr 1
  apply List.map_congr_left
  intro g hg
  exact groupPos_relabel (fun a ha => h a (List.mem_flatten.2 ⟨g, hg, ha⟩)) (fun a ha => he a (List.mem_flatten.2 ⟨g, hg, ha⟩))

theorem Moves.relabel {φ : Axis → Axis} {len len' : AxisMap} {L R : List (List Axis)} {x y : Tensor α}
    (h : ∀ a ∈ L.flatten ++ R.flatten, len a = len' (φ a)) (hm : Moves len L R x y) :
    Moves len' (relabel φ L) (relabel φ R) x y := by
  have hL : ∀ a ∈ L.flatten, len a = len' (φ a) := fun a ha => h a (List.mem_append_left _ ha)
  have hR : ∀ a ∈ R.flatten, len a = len' (φ a) := fun a ha => h a (List.mem_append_right _ ha)
  refine ⟨by rw [hm.1, map_groupSize_relabel hR], fun env henv => ?_⟩
  rw [flatten_relabel, flatten_relabel] at henv
  obtain ⟨v, h1, h2⟩ := hm.2 (fun a => env (φ a)) (fun a ha => by
    rw [h a ha]
    apply henv
    rw [← List.map_append]
    exact List.mem_map_of_mem ha)
  exact ⟨v, by rw [atAxes_relabel x hL (fun _ _ => rfl), h1], by rw [atAxes_relabel y hR (fun _ _ => rfl), h2]⟩

theorem loops_relabel {γ : Type*} {φ : Axis → Axis} {len len' : AxisMap} {A : List Axis}
    (hinj : ∀ a ∈ A, ∀ c ∈ A, φ a = φ c → a = c) {F G : AxisMap → γ}
    (hFG : ∀ e e' : AxisMap, (∀ a ∈ A, e a = e' (φ a)) → F e = G e') {D : List Axis} (hD : ∀ a ∈ D, a ∈ A)
    (hlen : ∀ a ∈ D, len a = len' (φ a)) {env env' : AxisMap} (he : ∀ a ∈ A, env a = env' (φ a)) :
    (loops len D env).map F = (loops len' (D.map φ) env').map G := by
  induction D generalizing env env' with
  | nil => simp [loops, hFG env env' he]
  | cons d D ih =>
    simp only [loops, List.map_cons, List.map_flatMap]
    rw [← hlen d (by simp)]
    congr 1
    funext i
    apply ih (fun a ha => hD a (by simp [ha])) (fun a ha => hlen a (by simp [ha]))
    intro a ha
    unfold setCoord
    by_cases h : a = d
    · subst h; simp
    · rw [if_neg h, if_neg (fun hc => h (hinj a ha d (hD d (by simp)) hc)), he a ha]

theorem filter_relabel {φ : Axis → Axis} {A B : List Axis} (hinj : ∀ a ∈ A ++ B, ∀ c ∈ A ++ B, φ a = φ c → a = c) :
    (A.map φ).filter (fun a => decide (a ∉ B.map φ)) = (A.filter (fun a => decide (a ∉ B))).map φ := by
  rw [List.filter_map]
  congr 1
  apply List.filter_congr
  intro a ha
  simp only [Function.comp, decide_eq_decide]
  constructor
  · exact fun h hb => h (List.mem_map_of_mem hb)
  · intro h hb
    obtain ⟨c, hc, hca⟩ := List.mem_map.1 hb
    have := hinj c (List.mem_append_right _ hc) a (List.mem_append_left _ ha) hca
    subst this
    exact h hc

theorem Reduces.relabel {op : List α → Py α} {φ : Axis → Axis} {len len' : AxisMap} {L R : List (List Axis)}
    {x y : Tensor α} (hinj : ∀ a ∈ L.flatten ++ R.flatten, ∀ c ∈ L.flatten ++ R.flatten, φ a = φ c → a = c)
    (h : ∀ a ∈ L.flatten ++ R.flatten, len a = len' (φ a)) (hm : Reduces op len L R x y) :
    Reduces op len' (relabel φ L) (relabel φ R) x y := by
  have hL : ∀ a ∈ L.flatten, len a = len' (φ a) := fun a ha => h a (List.mem_append_left _ ha)
  have hR : ∀ a ∈ R.flatten, len a = len' (φ a) := fun a ha => h a (List.mem_append_right _ ha)
  refine ⟨by rw [hm.1, map_groupSize_relabel hR], fun env henv => ?_⟩
  rw [flatten_relabel] at henv
  obtain ⟨vs, v, h1, h2, h3⟩ := hm.2 (fun a => env (φ a)) (fun a ha => by
    rw [hR a ha]
    exact henv _ (List.mem_map_of_mem ha))
  refine ⟨vs, v, ?_, h2, by rw [atAxes_relabel y hR (fun _ _ => rfl), h3]⟩
  rw [← h1, flatten_relabel, flatten_relabel, filter_relabel hinj]
  symm
  apply loops_relabel hinj
  · intro e e' hee
    exact (atAxes_relabel x hL (fun a ha => hee a (List.mem_append_left _ ha))).symm
  · exact fun a ha => List.mem_append_left _ (List.mem_of_mem_filter ha)
  · exact fun a ha => hL a (List.mem_of_mem_filter ha)
  · exact fun _ _ => rfl

theorem Moves.relabel_iff {φ : Axis → Axis} {len len' : AxisMap} {L R : List (List Axis)} {x y : Tensor α}
    (hinj : ∀ a ∈ L.flatten ++ R.flatten, ∀ c ∈ L.flatten ++ R.flatten, φ a = φ c → a = c)
    (h : ∀ a ∈ L.flatten ++ R.flatten, len a = len' (φ a)) :
    Moves len' (Einops.relabel φ L) (Einops.relabel φ R) x y ↔ Moves len L R x y := by
  refine ⟨fun hm => ?_, fun hm => hm.relabel h⟩
  obtain ⟨ψ, hψ⟩ := exists_inverse hinj
  have := hm.relabel (φ := ψ) (len' := len) (fun a ha => by
    rw [flatten_relabel, flatten_relabel, ← List.map_append] at ha
    obtain ⟨c, hc, rfl⟩ := List.mem_map.1 ha
    rw [hψ c hc, h c hc])
  rwa [relabel_inverse (fun a ha => hψ a (List.mem_append_left _ ha)),
    relabel_inverse (fun a ha => hψ a (List.mem_append_right _ ha))] at this

theorem Reduces.relabel_iff {op : List α → Py α} {φ : Axis → Axis} {len len' : AxisMap} {L R : List (List Axis)}
    {x y : Tensor α} (hinj : ∀ a ∈ L.flatten ++ R.flatten, ∀ c ∈ L.flatten ++ R.flatten, φ a = φ c → a = c)
    (h : ∀ a ∈ L.flatten ++ R.flatten, len a = len' (φ a)) :
    Reduces op len' (Einops.relabel φ L) (Einops.relabel φ R) x y ↔ Reduces op len L R x y := by
  refine ⟨fun hm => ?_, fun hm => hm.relabel hinj h⟩
  obtain ⟨ψ, hψ⟩ := exists_inverse hinj
  have := hm.relabel (φ := ψ) (len' := len) (by
    intro a ha c hc hac
    rw [flatten_relabel, flatten_relabel, ← List.map_append] at ha hc
    obtain ⟨a', ha', rfl⟩ := List.mem_map.1 ha
    obtain ⟨c', hc', rfl⟩ := List.mem_map.1 hc
    rw [hψ a' ha', hψ c' hc'] at hac
    rw [hac]) (fun a ha => by
    rw [flatten_relabel, flatten_relabel, ← List.map_append] at ha
    obtain ⟨c, hc, rfl⟩ := List.mem_map.1 ha
    rw [hψ c hc, h c hc])
  rwa [relabel_inverse (fun a ha => hψ a (List.mem_append_left _ ha)),
    relabel_inverse (fun a ha => hψ a (List.mem_append_right _ ha))] at this

theorem drops_relabel {φ : Axis → Axis} {L R : List (List Axis)}
    (hinj : ∀ a ∈ L.flatten ++ R.flatten, ∀ c ∈ L.flatten ++ R.flatten, φ a = φ c → a = c) :
    Drops (relabel φ L) (relabel φ R) ↔ Drops L R := by
  unfold Drops
  rw [flatten_relabel, flatten_relabel]
  constructor
  · rintro ⟨a, ha, hn⟩
    obtain ⟨c, hc, rfl⟩ := List.mem_map.1 ha
    exact ⟨c, hc, fun h => hn (List.mem_map_of_mem h)⟩
  · rintro ⟨a, ha, hn⟩
    refine ⟨φ a, List.mem_map_of_mem ha, fun h => hn ?_⟩
    obtain ⟨c, hc, hca⟩ := List.mem_map.1 h
    have := hinj c (List.mem_append_right _ hc) a (List.mem_append_left _ ha) hca
    subst this
    exact hc

end Einops
