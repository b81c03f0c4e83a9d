import Verif.Proofs.Slices
import Verif.Proofs.UnpackExact
import Verif.Proofs.EinsumLaws
import Verif.BatchSpec

/-! A new axis in calls of `pack`, `unpack` and `einsum`: slice by slice. -/

namespace Einops

universe u
variable {α : Type u}

/-! ### slices -/

theorem SlicesAre.at {x : Tensor α} {p n : Nat} {xs : Nat → Tensor α} (h : SlicesAre x p n xs) {i : Nat} (hi : i < n)
    {u v : List Nat} (hu : u.length = p) : (xs i).at? (u ++ v) = x.at? (u ++ i :: v) := by
  obtain ⟨_, _, -, -, h3⟩ := h
  exact (h3 i hi).2 u v hu

/-- the shape of the whole and the shapes of the slices -/
theorem SlicesAre.shape_iff {x : Tensor α} {n : Nat} {xs : Nat → Tensor α} {pre post : List Nat}
    (h : SlicesAre x pre.length n xs) {i : Nat} (hi : i < n) : x.shape = pre ++ n :: post ↔ (xs i).shape = pre ++ post := by
  obtain ⟨a, b, h1, h2, h3⟩ := h
  rw [h1, (h3 i hi).1]
  constructor
  · intro h
    obtain ⟨e1, e2⟩ := List.append_inj h h2
    cases e2
    rw [e1]
  · intro h
    obtain ⟨e1, e2⟩ := List.append_inj h h2
    rw [e1, e2]

theorem SlicesAre.shape {x : Tensor α} {n : Nat} {xs : Nat → Tensor α} {pre post : List Nat}
    (h : SlicesAre x pre.length n xs) (hx : x.shape = pre ++ n :: post) {i : Nat} (hi : i < n) : (xs i).shape = pre ++ post :=
  (h.shape_iff hi).1 hx

/-- a list splits at the place of a new entry -/
theorem split_at {i u v : List Nat} {N : Nat} (h : inBounds i (u ++ N :: v) = true) :
    ∃ a c b, i = a ++ c :: b ∧ a.length = u.length ∧ c < N ∧ inBounds (a ++ b) (u ++ v) = true := by
  have hl := inBounds_length h
  simp only [List.length_append, List.length_cons] at hl
  have h1 : (i.take u.length).length = u.length := by rw [List.length_take]; omega
  have h2 : i.drop u.length ≠ [] := by
    intro h2
    have := congrArg List.length h2
    simp at this
    omega
  obtain ⟨c, b, hcb⟩ := List.exists_cons_of_ne_nil h2
  have hi : i = i.take u.length ++ c :: b := by rw [← hcb, List.take_append_drop]
  rw [hi, inBounds_append h1] at h
  obtain ⟨h3, h4⟩ := h
  simp only [inBounds, Bool.and_eq_true, decide_eq_true_eq] at h4
  exact ⟨_, c, b, hi, h1, h4.1, (inBounds_append h1).2 ⟨h3, h4.2⟩⟩

/-- a piece of a tensor along an axis before it, slice by slice -/
theorem isPiece_before {u v post r : List Nat} {N o : Nat} {x z : Tensor α} {xs zs : Nat → Tensor α}
    (hN : 0 < N) (hx : SlicesAre x u.length N xs) (hz : SlicesAre z u.length N zs) :
    IsPiece (u ++ N :: v) post x o r z ↔ ∀ i < N, IsPiece (u ++ v) post (xs i) o r (zs i) := by
  constructor
  · intro h i hi
    refine ⟨?_, ?_⟩
    · rw [List.append_assoc, List.append_assoc]
      exact hz.shape (by rw [h.shape]; simp) hi
    · intro a s j ha hs hj
      have hla := inBounds_length ha
      rw [List.length_append] at hla
      have h1 : (a.take u.length).length = u.length := by rw [List.length_take]; omega
      have hae : a = a.take u.length ++ a.drop u.length := (List.take_append_drop _ _).symm
      generalize a.take u.length = a₁ at *
      generalize a.drop u.length = a₂ at *
      subst hae
      have e := h.entry (a₁ ++ i :: a₂) s j ((inBounds_insert h1 hi).trans ha) hs hj
      have e1 := hz.at hi (u := a₁) (v := a₂ ++ s ++ j) h1
      have e2 := hx.at hi (u := a₁) (v := a₂ ++ (o + ravel r s) :: j) h1
      simp only [List.append_assoc, List.cons_append] at e e1 e2 ⊢
      rw [e1, e, e2]
  · intro h
    refine ⟨?_, ?_⟩
    · rw [List.append_assoc, List.append_assoc, List.cons_append]
      refine (hz.shape_iff hN).2 ?_
      rw [(h 0 hN).shape]
      simp
    · intro a s j ha hs hj
      obtain ⟨a₁, i, a₂, rfl, h1, hi, ha'⟩ := split_at ha
      have e := (h i hi).entry (a₁ ++ a₂) s j ha' hs hj
      have e1 := hz.at hi (u := a₁) (v := a₂ ++ s ++ j) h1
      have e2 := hx.at hi (u := a₁) (v := a₂ ++ (o + ravel r s) :: j) h1
      simp only [List.append_assoc, List.cons_append] at e e1 e2 ⊢
      rw [← e1, e, e2]

/-- a piece of a tensor along an axis after it, slice by slice -/
theorem isPiece_after {pre u v r : List Nat} {N o : Nat} {x z : Tensor α} {xs zs : Nat → Tensor α}
    (hN : 0 < N) (hx : SlicesAre x (pre.length + 1 + u.length) N xs) (hz : SlicesAre z (pre ++ r ++ u).length N zs) :
    IsPiece pre (u ++ N :: v) x o r z ↔ ∀ i < N, IsPiece pre (u ++ v) (xs i) o r (zs i) := by
  have key : ∀ {i : Nat}, i < N → ∀ {a s j₁ j₂ : List Nat}, a.length = pre.length → s.length = r.length →
      j₁.length = u.length → (zs i).at? (a ++ s ++ (j₁ ++ j₂)) = z.at? (a ++ s ++ (j₁ ++ i :: j₂)) ∧
      (xs i).at? (a ++ (o + ravel r s) :: (j₁ ++ j₂)) = x.at? (a ++ (o + ravel r s) :: (j₁ ++ i :: j₂)) := by
    intro i hi a s j₁ j₂ ha hs hj
    have e1 := hz.at hi (u := a ++ s ++ j₁) (v := j₂) (by simp [ha, hs, hj])
    have e2 := hx.at hi (u := a ++ (o + ravel r s) :: j₁) (v := j₂) (by simp [ha, hj]; omega)
    simp only [List.append_assoc, List.cons_append] at e1 e2 ⊢
    exact ⟨e1, e2⟩
  constructor
  · intro h i hi
    refine ⟨?_, ?_⟩
    · rw [← List.append_assoc]
      exact hz.shape (by rw [h.shape]; simp) hi
    · intro a s j ha hs hj
      have hlj := inBounds_length hj
      rw [List.length_append] at hlj
      have h1 : (j.take u.length).length = u.length := by rw [List.length_take]; omega
      have hje : j = j.take u.length ++ j.drop u.length := (List.take_append_drop _ _).symm
      generalize j.take u.length = j₁ at *
      generalize j.drop u.length = j₂ at *
      subst hje
      have e := h.entry a s (j₁ ++ i :: j₂) ha hs ((inBounds_insert h1 hi).trans hj)
      obtain ⟨e1, e2⟩ := key hi (j₂ := j₂) (inBounds_length ha) (inBounds_length hs) h1
      rw [e1, e, e2]
  · intro h
    refine ⟨?_, ?_⟩
    · rw [← List.append_assoc]
      refine (hz.shape_iff hN).2 ?_
      rw [(h 0 hN).shape]
      simp
    · intro a s j ha hs hj
      obtain ⟨j₁, i, j₂, rfl, h1, hi, hj'⟩ := split_at hj
      have e := (h i hi).entry a s (j₁ ++ j₂) ha hs hj'
      obtain ⟨e1, e2⟩ := key hi (j₂ := j₂) (inBounds_length ha) (inBounds_length hs) h1
      rw [← e1, e, e2]

/-- packing in terms of pieces -/
theorem packs_iff_pieces {pre post : List Nat} {xs : List (Tensor α)} {rs : List (List Nat)} {y : Tensor α} :
    Packs pre post xs rs y ↔ rs.length = xs.length ∧ y.shape = pre ++ (rs.map List.prod).sum :: post ∧
      ∀ (k : Nat) (x : Tensor α) (r : List Nat), xs[k]? = some x → rs[k]? = some r →
        IsPiece pre post y ((rs.map List.prod).take k).sum r x := by
  constructor
  · intro h
    exact ⟨h.count, h.whole, fun k x r hx hr => ⟨h.part k x r hx hr, fun i s j hi hs hj => (h.entry k x r hx hr i s j hi hs hj).symm⟩⟩
  · rintro ⟨h1, h2, h3⟩
    exact ⟨h1, fun k x r hx hr => (h3 k x r hx hr).shape, h2, fun k x r hx hr i s j hi hs hj => ((h3 k x r hx hr).entry i s j hi hs hj).symm⟩

theorem forall₂_get_left {β γ : Type*} {Q : β → γ → Prop} {l : List β} {l' : List γ} (h : List.Forall₂ Q l l') {k : Nat} {b : β}
    (hb : l[k]? = some b) : ∃ c, l'[k]? = some c ∧ Q b c := by
  obtain ⟨hk, rfl⟩ := List.getElem?_eq_some_iff.1 hb
  have hk' : k < l'.length := h.length_eq ▸ hk
  exact ⟨l'[k], List.getElem?_eq_getElem hk', forall₂_get h k hb (List.getElem?_eq_getElem hk')⟩

theorem packs_before {u v post : List Nat} {N : Nat} {xs : List (Tensor α)} {fs : List (Nat → Tensor α)} {rs : List (List Nat)}
    {y : Tensor α} {ys : Nat → Tensor α} (hN : 0 < N) (hy : SlicesAre y u.length N ys)
    (hx : List.Forall₂ (fun x f => SlicesAre x u.length N f) xs fs) :
    Packs (u ++ N :: v) post xs rs y ↔ ∀ i < N, Packs (u ++ v) post (fs.map (· i)) rs (ys i) := by
  simp only [packs_iff_pieces]
  have hl := hx.length_eq
  constructor
  · rintro ⟨h1, h2, h3⟩ i hi
    refine ⟨by rw [h1, hl, List.length_map], ?_, fun k z r hz hr => ?_⟩
    · rw [List.append_assoc]
      exact hy.shape (by rw [h2]; simp) hi
    · rw [List.getElem?_map, Option.map_eq_some_iff] at hz
      obtain ⟨f, hf, rfl⟩ := hz
      obtain ⟨x, hxk, hs⟩ := forall₂_get_left hx.flip hf
      exact (isPiece_before hN hy hs).1 (h3 k x r hxk hr) i hi
  · intro h
    refine ⟨by rw [(h 0 hN).1, hl, List.length_map], ?_, fun k x r hxk hr => ?_⟩
    · rw [List.append_assoc, List.cons_append]
      refine (hy.shape_iff hN).2 ?_
      rw [(h 0 hN).2.1]
      simp
    · obtain ⟨f, hf, hs⟩ := forall₂_get_left hx hxk
      exact (isPiece_before hN hy hs).2 (fun i hi => (h i hi).2.2 k (f i) r (by rw [List.getElem?_map, hf]; rfl) hr)

/-- the axis is counted from the end: the parts may have different numbers of dimensions -/
theorem packs_after {pre u v : List Nat} {N : Nat} {xs : List (Tensor α)} {fs : List (Nat → Tensor α)} {rs : List (List Nat)}
    {y : Tensor α} {ys : Nat → Tensor α} (hN : 0 < N) (hy : SlicesAre y (pre.length + 1 + u.length) N ys)
    (hx : List.Forall₂ (fun x f => SlicesAre x (x.shape.length - (v.length + 1)) N f) xs fs) :
    Packs pre (u ++ N :: v) xs rs y ↔ ∀ i < N, Packs pre (u ++ v) (fs.map (· i)) rs (ys i) := by
  simp only [packs_iff_pieces]
  have hl := hx.length_eq
  have hy' : ∀ s : Nat, SlicesAre y (pre ++ s :: u).length N ys := by
    intro s
    have : (pre ++ s :: u).length = pre.length + 1 + u.length := by simp; omega
    rw [this]
    exact hy
  constructor
  · rintro ⟨h1, h2, h3⟩ i hi
    refine ⟨by rw [h1, hl, List.length_map], ?_, fun k z r hz hr => ?_⟩
    · rw [← List.cons_append, ← List.append_assoc]
      exact (hy' _).shape (by rw [h2]; simp) hi
    · rw [List.getElem?_map, Option.map_eq_some_iff] at hz
      obtain ⟨f, hf, rfl⟩ := hz
      obtain ⟨x, hxk, hs⟩ := forall₂_get_left hx.flip hf
      have hp := h3 k x r hxk hr
      have he : x.shape.length - (v.length + 1) = (pre ++ r ++ u).length := by rw [hp.shape]; simp; omega
      replace hs : SlicesAre x (x.shape.length - (v.length + 1)) N f := hs
      rw [he] at hs
      exact (isPiece_after hN hy hs).1 hp i hi
  · intro h
    refine ⟨by rw [(h 0 hN).1, hl, List.length_map], ?_, fun k x r hxk hr => ?_⟩
    · rw [← List.cons_append, ← List.append_assoc]
      refine ((hy' _).shape_iff hN).2 ?_
      rw [(h 0 hN).2.1]
      simp
    · obtain ⟨f, hf, hs⟩ := forall₂_get_left hx hxk
      have hpc : ∀ i < N, IsPiece pre (u ++ v) (ys i) ((rs.map List.prod).take k).sum r (f i) :=
        fun i hi => (h i hi).2.2 k (f i) r (by rw [List.getElem?_map, hf]; rfl) hr
      have he : x.shape.length - (v.length + 1) = (pre ++ r ++ u).length := by
        obtain ⟨a, b, e1, e2, e3⟩ := hs
        have h4 := (hpc 0 hN).shape
        rw [(e3 0 hN).1] at h4
        have h5 := congrArg List.length h4
        rw [e1]
        simp at h5 ⊢
        omega
      rw [he] at hs
      exact (isPiece_after hN hy hs).2 hpc

/-! ### einsum -/

theorem symAxes_append' (n : Nat) (a b : List ESym) : symAxes n (a ++ b) = symAxes n a ++ symAxes n b := by
  induction a with
  | nil => rfl
  | cons x a ih => cases x <;> simp [symAxes, ih]

theorem symAxes_insert (n : Nat) (A B : List ESym) (w : Str) :
    symAxes n (A ++ .name w :: B) = symAxes n A ++ .str w :: symAxes n B := by
  rw [symAxes_append']; rfl

theorem symNames_insert (A B : List ESym) (w v : Str) : v ∈ symNames (A ++ .name w :: B) ↔ v = w ∨ v ∈ symNames (A ++ B) := by
  simp only [name_mem_symNames, List.mem_append, List.mem_cons, ESym.name.injEq]
  tauto

section
variable {w : Str} {n N : Nat} {b : BatchInput α}

theorem Batched.names (h : Batched w n N b) {v : Str} (hv : v ≠ w) : v ∈ symNames b.term' ↔ v ∈ symNames b.term := by
  cases h with
  | shared _ => exact Iff.rfl
  | sliced _ _ => simp [symNames_insert, hv]

theorem Batched.fresh (h : Batched w n N b) : w ∉ symNames b.term := by
  cases h with
  | shared h => exact h
  | sliced h _ => exact h

theorem Batched.ell (h : Batched w n N b) : ESym.ell ∈ b.term' ↔ ESym.ell ∈ b.term := by
  cases h with
  | shared _ => exact Iff.rfl
  | sliced _ _ => simp

theorem Batched.len (h : Batched w n N b) (hw : w ∈ symNames b.term') {len : AxisMap}
    (hs : b.whole.shape = (symAxes n b.term').map len) : len (.str w) = N := by
  cases h with
  | shared h => exact absurd hw h
  | @sliced A B x xs _ h =>
    obtain ⟨pre, post, h1, h2, -⟩ := h
    simp only [symAxes_insert, List.map_append, List.map_cons] at hs
    rw [h1] at hs
    obtain ⟨-, e⟩ := List.append_inj hs (by simp [h2])
    cases e
    rfl

theorem Batched.shape (h : Batched w n N b) {len : AxisMap} (hs : b.whole.shape = (symAxes n b.term').map len)
    (hN : len (.str w) = N) {i : Nat} (hi : i < N) : (b.parts i).shape = (symAxes n b.term).map len := by
  cases h with
  | shared h => exact hs
  | @sliced A B x xs _ h =>
    simp only [symAxes_insert, List.map_append, List.map_cons, hN] at hs
    simp only [symAxes_append', List.map_append]
    rw [show (symAxes n A).length = ((symAxes n A).map len).length by simp] at h
    exact h.shape hs hi

variable [CommSemiring α]

theorem Batched.entry (h : Batched w n N b) {e : AxisMap} (hi : e (.str w) < N) :
    entry b.whole ((symAxes n b.term').map e) = entry (b.parts (e (.str w))) ((symAxes n b.term).map e) := by
  cases h with
  | shared h => rfl
  | @sliced A B x xs _ h =>
    simp only [symAxes_insert, symAxes_append', List.map_append, List.map_cons]
    unfold Einops.entry
    rw [h.at hi (by simp)]
    rfl

theorem termProd_batched {ins : List (BatchInput α)} (h : ∀ b ∈ ins, Batched w n N b) {e : AxisMap} {i : Nat}
    (he : e (.str w) = i) (hi : i < N) :
    termProd ((ins.map (·.term')).map (symAxes n)) (ins.map (·.whole)) e =
      termProd ((ins.map (·.term)).map (symAxes n)) (ins.map (·.parts i)) e := by
  subst he
  unfold termProd
  induction ins with
  | nil => rfl
  | cons b ins ih =>
    simp only [List.map_cons, List.zipWith_cons_cons, List.prod_cons] at ih ⊢
    rw [(h b (by simp)).entry hi, ih (fun b hb => h b (by simp [hb]))]

theorem contracts_batched {ins : List (BatchInput α)} (h : ∀ b ∈ ins, Batched w n N b) {C D : List ESym} {len : AxisMap}
    {y : Tensor α} {ys : Nat → Tensor α} (hw : Axis.str w ∉ ellAxes n) (hout : w ∉ symNames (C ++ D)) (hN : len (.str w) = N)
    (hy : SlicesAre y (symAxes n C).length N ys)
    (hc : Contracts len ((ins.map (·.term')).map (symAxes n)) (symAxes n (C ++ .name w :: D)) (ins.map (·.whole)) y)
    {i : Nat} (hi : i < N) :
    Contracts len ((ins.map (·.term)).map (symAxes n)) (symAxes n (C ++ D)) (ins.map (·.parts i)) (ys i) := by
  obtain ⟨h1, h2⟩ := hc
  have hfree : ∀ t : List ESym, w ∉ symNames t → Axis.str w ∉ symAxes n t := by
    intro t ht hm
    rcases mem_symAxes.1 hm with ⟨-, h⟩ | ⟨v, hv, e⟩
    · exact hw h
    · cases e; exact ht hv
  have hAs : ∀ A ∈ (ins.map (·.term)).map (symAxes n), Axis.str w ∉ A := by
    intro A hA
    rw [List.map_map] at hA
    obtain ⟨b, hb, rfl⟩ := List.mem_map.1 hA
    exact hfree _ (h b hb).fresh
  refine ⟨?_, ?_⟩
  · rw [symAxes_insert, List.map_append, List.map_cons, hN] at h1
    rw [symAxes_append', List.map_append]
    rw [show (symAxes n C).length = ((symAxes n C).map len).length by simp] at hy
    exact hy.shape h1 hi
  · intro S hS hm env henv
    have ec : setCoord env (.str w) i (.str w) = i := by simp [setCoord]
    have eo : ∀ a, a ≠ .str w → setCoord env (.str w) i a = env a := fun a ha => by simp [setCoord, ha]
    have hmap : ∀ t : List ESym, w ∉ symNames t → (symAxes n t).map (setCoord env (.str w) i) = (symAxes n t).map env :=
      fun t ht => List.map_congr_left (fun a ha => eo a (fun e => hfree t ht (e ▸ ha)))
    have hwS : Axis.str w ∉ S := by
      intro hs
      obtain ⟨⟨A, hA, ha⟩, -⟩ := (hm _).1 hs
      exact hAs A hA ha
    have h3 := h2 S hS (fun a => by
      rw [hm]
      by_cases ha : a = .str w
      · subst ha
        constructor
        · rintro ⟨⟨A, hA, ha⟩, -⟩
          exact absurd ha (hAs A hA)
        · rintro ⟨-, hn⟩
          exact absurd (by rw [symAxes_insert]; simp) hn
      · have hb : ∀ b ∈ ins, (a ∈ symAxes n b.term' ↔ a ∈ symAxes n b.term) := by
          intro b hb
          rw [mem_symAxes, mem_symAxes, (h b hb).ell]
          refine or_congr_right (exists_congr fun v => ?_)
          constructor
          · rintro ⟨hv, rfl⟩
            exact ⟨((h b hb).names (fun e => ha (by rw [e]))).1 hv, rfl⟩
          · rintro ⟨hv, rfl⟩
            exact ⟨((h b hb).names (fun e => ha (by rw [e]))).2 hv, rfl⟩
        refine and_congr ?_ (not_congr ?_)
        · simp only [List.mem_map, exists_exists_and_eq_and]
          exact exists_congr fun b => and_congr_right fun hbm => (hb b hbm).symm
        · rw [symAxes_insert, symAxes_append', List.mem_append, List.mem_append, List.mem_cons]
          simp [ha]) (setCoord env (.str w) i) (fun a ha => by
      by_cases hac : a = .str w
      · subst hac; rw [ec, hN]; exact hi
      · rw [eo a hac]
        apply henv
        rw [symAxes_insert, List.mem_append, List.mem_cons] at ha
        rw [symAxes_append', List.mem_append]
        tauto)
    have e1 : (loops len S (setCoord env (.str w) i)).map
          (termProd ((ins.map (·.term')).map (symAxes n)) (ins.map (·.whole))) =
        (loops len S (setCoord env (.str w) i)).map
          (termProd ((ins.map (·.term)).map (symAxes n)) (ins.map (·.parts i))) := by
      apply List.map_congr_left
      intro e he
      exact termProd_batched h (((mem_loops he).1 _ hwS).trans ec) hi
    have e2 := loops_relabel (φ := id) (len := len) (len' := len) (A := ((ins.map (·.term)).map (symAxes n)).flatten)
      (fun _ _ _ _ h => h) (F := termProd ((ins.map (·.term)).map (symAxes n)) (ins.map (·.parts i)))
      (G := termProd ((ins.map (·.term)).map (symAxes n)) (ins.map (·.parts i)))
      (fun e e' he => by
        have := termProd_congr (φ := id) (As := (ins.map (·.term)).map (symAxes n)) (xs := ins.map (·.parts i)) (e := e) (e' := e')
          (fun A hA a ha => he a (List.mem_flatten.2 ⟨A, hA, ha⟩))
        simpa using this)
      (D := S) (fun a ha => by
        obtain ⟨⟨A, hA, ha⟩, -⟩ := (hm a).1 ha
        exact List.mem_flatten.2 ⟨A, hA, ha⟩) (fun _ _ => rfl) (env := env) (env' := setCoord env (.str w) i)
      (fun a ha => by
        obtain ⟨A, hA, ha⟩ := List.mem_flatten.1 ha
        exact (eo a (fun e => hAs A hA (e ▸ ha))).symm)
    rw [List.map_id] at e2
    rw [e1, ← e2, symAxes_insert, List.map_append, List.map_cons, ec, ← hy.at hi (by simp)] at h3
    rw [← h3, ← hmap _ hout, symAxes_append', List.map_append]

end

end Einops
