import Verif.Proofs.Unpacking

/-! When `unpack` succeeds, without any assumption that the lengths fit. -/

namespace Einops

universe u
variable {α : Type u}

/-- one piece, exactly -/
theorem unpackPiece_iff {ops : PackOps α} (ho : PackModelled ops) {x : Tensor α} {pre post : List Nat} {N : Nat}
    (hx : x.shape = pre ++ N :: post) {sp : List Int} {s : List Int} {k : Nat} (hs : ∀ d ∈ s, -1 ≤ d) {y : Tensor α} :
    unpackPiece ops x pre.length sp s k = .ok y ↔ ∃ r, Fills s r ∧ s.count (-1) ≤ 1 ∧
      (-1 ∈ s → (0 : Int) ∉ s ∧ 0 ∉ pre ∧ 0 ∉ post) ∧
      (pre ++ r ++ post).prod = (pre ++ (clipSlice N (sp.getD (k + 1) 0) - clipSlice N (sp.getD k 0)) :: post).prod ∧
      IsPiece pre post x (clipSlice N (sp.getD k 0)) r y := by
  obtain ⟨z, hz1, hz2, hz3⟩ := slice_ok hx (sp.getD k 0) (sp.getD (k + 1) 0)
  have hge := ge_around pre post hs
  have hval : unpackPiece ops x pre.length sp s k = z.reshape (pre.map Int.ofNat ++ s ++ post.map Int.ofNat) := by
    unfold unpackPiece
    rw [ho.slice, hz1]
    simp only
    rw [hx, (take_drop_mid pre post N).1, (take_drop_mid pre post N).2, ho.reshape hge]
  rw [hval, reshape_iff hge]
  have hone : ∀ {r : List Nat} {y : Tensor α}, z.withShape (pre ++ r ++ post) = .ok y →
      IsPiece pre post x (clipSlice N (sp.getD k 0)) r y ∧
      (pre ++ r ++ post).prod = (pre ++ (clipSlice N (sp.getD (k + 1) 0) - clipSlice N (sp.getD k 0)) :: post).prod := by
    intro r y hw
    obtain ⟨w1, w2⟩ := withShape_ok.1 hw
    have hp : (pre ++ r ++ post).prod = z.shape.prod := by rw [← w1, ← y.wf, ← z.wf, w2]
    rw [hz2] at hp
    refine ⟨⟨w1, fun i s j hi hs hj => ?_⟩, hp⟩
    have n0 : (pre ++ r ++ post).prod ≠ 0 := by
      have := ravel_lt ((inBounds_append (inBounds_length hi)).2 ⟨hi, (inBounds_append (inBounds_length hs)).2 ⟨hs, hj⟩⟩)
      rw [List.append_assoc]
      omega
    have hr : r.prod = clipSlice N (sp.getD (k + 1) 0) - clipSlice N (sp.getD k 0) := by
      simp only [List.prod_append, List.prod_cons] at hp n0
      have n1 : pre.prod ≠ 0 := fun h => n0 (by simp [h])
      have n2 : post.prod ≠ 0 := fun h => n0 (by simp [h])
      rw [Nat.mul_assoc] at hp
      exact Nat.eq_of_mul_eq_mul_right (Nat.pos_of_ne_zero n2) (Nat.eq_of_mul_eq_mul_left (Nat.pos_of_ne_zero n1) hp)
    rw [← hr] at hz2 hz3
    rw [← at?_merge w2 w1 hz2 hi hs hj, hz3 i _ j hi (ravel_lt hs) hj]
  constructor
  · rintro ⟨t, hf, hc, hz, hw⟩
    rw [count_around] at hc
    rw [neg_around, zero_around] at hz
    obtain ⟨a, b, rfl, fa, fb⟩ := hf.split
    obtain ⟨a', r, rfl, fa', fr⟩ := fa.split
    rw [fa'.ofNat, fb.ofNat] at hw
    obtain ⟨h1, h2⟩ := hone hw
    exact ⟨r, fr, hc, fun h => ⟨fun h' => hz h (.inr (.inl h')), fun h' => hz h (.inl h'), fun h' => hz h (.inr (.inr h'))⟩,
      h2, h1⟩
  · rintro ⟨r, fr, hc, hz, hprod, hpiece⟩
    obtain ⟨y', hy'⟩ : ∃ y, z.withShape (pre ++ r ++ post) = .ok y := by
      unfold Tensor.withShape
      rw [dif_pos (by rw [hprod, hz2])]
      exact ⟨_, rfl⟩
    obtain ⟨h1, -⟩ := hone hy'
    have hyy : y' = y := by
      refine Tensor.ext_at? (h1.shape.trans hpiece.shape.symm) ?_
      intro idx hidx
      rw [h1.shape] at hidx
      obtain ⟨i', s', j', rfl, hi', hs', hj'⟩ := inBounds_split hidx
      rw [h1.entry _ _ _ hi' hs' hj', hpiece.entry _ _ _ hi' hs' hj']
    subst hyy
    refine ⟨_, ((fills_ofNat pre).append fr).append (fills_ofNat post), by rw [count_around]; exact hc, ?_, hy'⟩
    rw [neg_around, zero_around]
    intro h
    obtain ⟨a, b, c⟩ := hz h
    rintro (h | h | h)
    · exact b h
    · exact a h
    · exact c h

theorem mapE_iff {A B : Type*} {f : A → Py B} {l : List A} {bs : List B} :
    mapE f l = .ok bs ↔ List.Forall₂ (fun a b => f a = .ok b) l bs := by
  induction l generalizing bs with
  | nil =>
    simp only [mapE, List.forall₂_nil_left_iff]
    exact ⟨fun h => by cases h; rfl, fun h => by rw [h]⟩
  | cons a l ih =>
    rw [mapE, List.forall₂_cons_left_iff]
    cases ha : f a with
    | error e => simp
    | ok b =>
      cases hl : mapE f l with
      | error e =>
        simp only [reduceCtorEq, Except.ok.injEq, false_iff, not_exists, not_and]
        rintro b' u' - h - 
        rw [← ih, hl] at h
        cases h
      | ok bs' =>
        simp only [Except.ok.injEq]
        constructor
        · rintro rfl
          exact ⟨b, bs', rfl, ih.1 hl, rfl⟩
        · rintro ⟨b', u', rfl, h, rfl⟩
          rw [← ih, hl] at h
          cases h
          rfl

theorem starts_length (o : Nat) (rs : List (List Nat)) : (starts o rs).length = rs.length := by
  induction rs generalizing o with
  | nil => rfl
  | cons r rs ih => simp [starts, ih]

theorem starts_get (o : Nat) (rs : List (List Nat)) (k : Nat) :
    (starts o rs)[k]? = rs[k]?.map (fun r => (o + ((rs.map List.prod).take k).sum, r)) := by
  induction rs generalizing o k with
  | nil => simp [starts]
  | cons r rs ih =>
    cases k with
    | zero => simp [starts]
    | succ k =>
      simp only [starts, List.getElem?_cons_succ, ih, List.map_cons, List.take_succ_cons, List.sum_cons, Nat.add_assoc]

theorem clipSlice_bound {N : Nat} {v s : Nat} (h : v = clipSlice N ((N : Int) - s) - clipSlice N ((N : Int) - (v + s : Nat)))
    (hs : s ≤ N) : v + s ≤ N := by
  have : clipSlice N ((N : Int) - s) = N - s := by
    rw [show (N : Int) - s = ((N - s : Nat) : Int) from by omega, clipSlice_nat _ _ (by omega)]
  omega

/-- the cuts at the positions counted from both ends -/
theorem cut_positions {N : Nat} {a b : List Nat} {t : Nat} {c : Nat → Nat} {sp : List Int}
    (hc : ∀ k, c k = clipSlice N (sp.getD k 0))
    (hlo : ∀ i, i ≤ a.length → sp.getD i 0 = (((a.take i).sum : Nat) : Int))
    (hhi : ∀ j, j ≤ b.length → sp.getD (a.length + 1 + j) 0 = (N : Int) - (((b.drop j).sum : Nat) : Int)) :
    ((∀ k v, (a ++ t :: b)[k]? = some v → v = c (k + 1) - c k) ↔ a.sum ≤ N ∧ b.sum ≤ N ∧ t = N - a.sum - b.sum) ∧
    (a.sum ≤ N → b.sum ≤ N → (∀ i, i ≤ a.length → c i = (a.take i).sum) ∧
      ∀ j, j ≤ b.length → c (a.length + 1 + j) = N - b.sum + (b.take j).sum) := by
  have hsplit : ∀ j, (b.take j).sum + (b.drop j).sum = b.sum := fun j => by
    rw [← List.sum_append, List.take_append_drop]
  have hoff : a.sum ≤ N → b.sum ≤ N → (∀ i, i ≤ a.length → c i = (a.take i).sum) ∧
      ∀ j, j ≤ b.length → c (a.length + 1 + j) = N - b.sum + (b.take j).sum := by
    intro ha hb
    refine ⟨fun i hi => ?_, fun j hj => ?_⟩
    · rw [hc, hlo i hi, clipSlice_nat _ _ (le_trans (offset_le a i) ha)]
    · have := hsplit j
      rw [hc, hhi j hj, show (N : Int) - (((b.drop j).sum : Nat) : Int) = ((N - (b.drop j).sum : Nat) : Int) from by omega,
        clipSlice_nat _ _ (by omega)]
      omega
  refine ⟨⟨fun h => ?_, ?_⟩, hoff⟩
  · have ha : ∀ i, i ≤ a.length → (a.take i).sum ≤ N := by
      intro i
      induction i with
      | zero => simp
      | succ i ih =>
        intro hi
        have hi' : i < a.length := hi
        have h1 := h i a[i] (by rw [List.getElem?_append_left hi']; simp [hi'])
        have h2 := offset_succ a i a[i] (by simp [hi'])
        have h3 := ih (by omega)
        have h4 : c i = (a.take i).sum := by rw [hc, hlo i (by omega), clipSlice_nat _ _ h3]
        have h5 : c (i + 1) ≤ N := by rw [hc]; exact clipSlice_le _ _
        omega
    have hb : ∀ j, j ≤ b.length → (b.drop (b.length - j)).sum ≤ N := by
      intro j
      induction j with
      | zero => simp
      | succ j ih =>
        intro hj
        obtain ⟨m, hm⟩ : ∃ m, m = b.length - (j + 1) := ⟨_, rfl⟩
        have hm' : m < b.length := by omega
        have h3 := ih (by omega)
        rw [show b.length - j = m + 1 from by omega] at h3
        rw [← hm]
        have h1 := h (a.length + 1 + m) b[m] (by
          rw [List.getElem?_append_right (by omega), show a.length + 1 + m - a.length = m + 1 from by omega,
            List.getElem?_cons_succ]
          simp [hm'])
        have hd : (b.drop m).sum = b[m] + (b.drop (m + 1)).sum := by
          rw [List.drop_eq_getElem_cons hm', List.sum_cons]
        rw [hc, hc, hhi m (by omega), show a.length + 1 + m + 1 = a.length + 1 + (m + 1) from by omega,
          hhi (m + 1) (by omega), hd] at h1
        rw [hd]
        exact clipSlice_bound h1 h3
    have ha' := ha a.length (le_refl _)
    have hb' := hb b.length (le_refl _)
    rw [List.take_length] at ha'
    rw [Nat.sub_self, List.drop_zero] at hb'
    obtain ⟨o1, o2⟩ := hoff ha' hb'
    refine ⟨ha', hb', ?_⟩
    have h1 := h a.length t (by simp)
    have h2 := o2 0 (by omega)
    rw [o1 _ (le_refl _), List.take_length, show a.length + 1 = a.length + 1 + 0 from rfl, h2] at h1
    simp at h1
    omega
  · rintro ⟨ha, hb, ht⟩ k v hk
    obtain ⟨o1, o2⟩ := hoff ha hb
    rcases Nat.lt_trichotomy k a.length with h1 | h1 | h1
    · rw [List.getElem?_append_left h1] at hk
      rw [o1 k (by omega), o1 (k + 1) (by omega), offset_succ a k v hk]
      omega
    · subst h1
      have h2 := o2 0 (by omega)
      rw [o1 _ (le_refl _), List.take_length, show a.length + 1 = a.length + 1 + 0 from rfl, h2]
      simp at hk
      simp
      omega
    · obtain ⟨j, rfl⟩ : ∃ j, k = a.length + 1 + j := ⟨k - a.length - 1, by omega⟩
      rw [List.getElem?_append_right (by omega), show a.length + 1 + j - a.length = j + 1 from by omega,
        List.getElem?_cons_succ] at hk
      have hj : j < b.length := (List.getElem?_eq_some_iff.1 hk).1
      rw [o2 j (by omega), show a.length + 1 + j + 1 = a.length + 1 + (j + 1) from by omega, o2 (j + 1) (by omega),
        offset_succ b j v hk]
      omega

theorem starts_snd (o : Nat) (rs : List (List Nat)) : (starts o rs).map Prod.snd = rs := by
  induction rs generalizing o with
  | nil => rfl
  | cons r rs ih => simp [starts, ih]

theorem knownTotal_eq {P : List (List Int)} {R : List (List Nat)} (hf : List.Forall₂ Fills P R) (hn : -1 ∉ P.flatten) :
    knownTotal P = ((total R : Nat) : Int) := by
  induction hf with
  | nil => rfl
  | cons h1 h2 ih =>
    rw [List.flatten_cons, List.mem_append, not_or] at hn
    have ih := ih hn.2
    unfold knownTotal total at *
    rw [List.filter_cons_of_pos (by simpa using hn.1), List.map_cons, List.sum_cons, ih, Fills.known h1 hn.1, prod_ofNat]
    simp

theorem knownTotal_unknown {A B : List (List Int)} {s : List Int} (hs : -1 ∈ s) :
    knownTotal (A ++ s :: B) = knownTotal A + knownTotal B := by
  unfold knownTotal
  rw [List.filter_append, List.filter_cons_of_neg (by simpa using hs)]
  simp

section
variable [PyUnicode]

/-- `unpack` by pieces: what it needs of every piece, and the pieces -/
theorem unpack_iff {ops : PackOps α} (ho : PackModelled ops) {pattern : Str} {pre post : List Nat} {N : Nat}
    (hp : IsPackPattern pattern pre.length post.length) {x : Tensor α} (hx : x.shape = pre ++ N :: post)
    {ps : List (List Int)} (hge : ∀ s ∈ ps, ∀ d ∈ s, -1 ≤ d) {c : Nat → Nat}
    (hc : ∀ k, c k = clipSlice N ((splitPositions N (composedLengths ps)).getD k 0)) (ys : List (Tensor α)) :
    unpack ops x ps pattern = .ok ys ↔ ps.flatten.count (-1) ≤ 1 ∧ (∀ s ∈ ps, -1 ∈ s → (0 : Int) ∉ s ∧ 0 ∉ pre ∧ 0 ∉ post) ∧
      ∃ rs, List.Forall₂ Fills ps rs ∧
        (∀ k r, rs[k]? = some r → (pre ++ r ++ post).prod = (pre ++ (c (k + 1) - c k) :: post).prod) ∧
        rs.length = ys.length ∧ ∀ k r y, rs[k]? = some r → ys[k]? = some y → IsPiece pre post x (c k) r y := by
  have hval : unpack ops x ps pattern = .ok ys ↔ (ps.filter (fun s => decide (-1 ∈ s))).length ≤ 1 ∧
      List.Forall₂ (fun (p : List Int × Nat) y => unpackPiece ops x pre.length
        (splitPositions N (composedLengths ps)) p.1 p.2 = .ok y) ps.zipIdx ys := by
    unfold unpack
    rw [analyzePattern_iff.2 ⟨hp, rfl⟩]
    simp only
    rw [if_neg (by rw [hx]; simp; omega), composedLengths_count hge]
    have hN : nth x.shape pre.length = N := by rw [hx, nth_mid]
    rw [hN, ← mapE_iff]
    by_cases hf : (ps.filter (fun s => decide (-1 ∈ s))).length > 1
    · rw [if_pos hf]
      constructor
      · intro h; cases h
      · intro h; omega
    · rw [if_neg hf]
      cases hm : mapE (fun p : List Int × Nat => unpackPiece ops x pre.length
        (splitPositions N (composedLengths ps)) p.1 p.2) ps.zipIdx with
      | error e => simp
      | ok ys' => exact ⟨fun h => ⟨by omega, h⟩, fun h => h.2⟩
  rw [hval]
  constructor
  · rintro ⟨hf, h⟩
    have hlen : ps.length = ys.length := by simpa using h.length_eq
    have hpiece : ∀ k : Fin ps.length, ∃ r, Fills ps[k] r ∧ ps[k].count (-1) ≤ 1 ∧
        (-1 ∈ ps[k] → (0 : Int) ∉ ps[k] ∧ 0 ∉ pre ∧ 0 ∉ post) ∧
        (pre ++ r ++ post).prod = (pre ++ (c (k + 1) - c k) :: post).prod ∧
        IsPiece pre post x (c k) r (ys[k.val]'(by omega)) := by
      intro k
      have := forall₂_get h k.val (a := (ps[k], k.val)) (b := ys[k.val]'(by omega)) (by simp) (by simp)
      have := (unpackPiece_iff ho hx (hge ps[k] (by simp))).1 this
      simp only [hc]
      exact this
    choose f h1 h2 h3 h4 h5 using hpiece
    have hcs : ∀ s ∈ ps, s.count (-1) ≤ 1 ∧ (-1 ∈ s → (0 : Int) ∉ s ∧ 0 ∉ pre ∧ 0 ∉ post) := by
      intro s hs
      obtain ⟨k, hk, rfl⟩ := List.getElem_of_mem hs
      exact ⟨h2 ⟨k, hk⟩, h3 ⟨k, hk⟩⟩
    refine ⟨le_trans (flatten_count_le (fun s hs => (hcs s hs).1)) hf, fun s hs => (hcs s hs).2, List.ofFn f, ?_, ?_, ?_, ?_⟩
    · refine forall₂_of_get (by simp) ?_
      intro k s r hs hr
      have hlt : k < ps.length := (List.getElem?_eq_some_iff.1 hs).1
      rw [List.getElem?_ofFn, dif_pos hlt] at hr
      have e : ps[k] = s := by simpa [hlt] using hs
      cases hr
      rw [← e]
      exact h1 ⟨k, hlt⟩
    · intro k r hr
      have hlt : k < ps.length := by simpa using (List.getElem?_eq_some_iff.1 hr).1
      rw [List.getElem?_ofFn, dif_pos hlt] at hr
      cases hr
      exact h4 ⟨k, hlt⟩
    · simp [hlen]
    · intro k r y hr hy
      have hlt : k < ps.length := by simpa using (List.getElem?_eq_some_iff.1 hr).1
      rw [List.getElem?_ofFn, dif_pos hlt] at hr
      have e : ys[k]'(by omega) = y := by simpa [← hlen, hlt] using hy
      cases hr
      rw [← e]
      exact h5 ⟨k, hlt⟩
  · rintro ⟨hcount, hz, rs, hf, hprod, hlen, hpc⟩
    refine ⟨le_trans filter_unknown_le hcount, forall₂_of_get (by simp [← hlen, hf.length_eq]) ?_⟩
    rintro k ⟨s, k'⟩ y hs hy
    rw [List.getElem?_zipIdx] at hs
    obtain ⟨s', hs', e⟩ := Option.map_eq_some_iff.1 hs
    simp only [Nat.zero_add, Prod.mk.injEq] at e
    obtain ⟨rfl, rfl⟩ := e
    have hmem := List.mem_of_getElem? hs'
    have hk : k < rs.length := by rw [← hf.length_eq]; exact (List.getElem?_eq_some_iff.1 hs').1
    have hr : rs[k]? = some rs[k] := by simp [hk]
    refine (unpackPiece_iff ho hx (hge s' hmem)).2 ⟨rs[k], forall₂_get hf k hs' hr, ?_, hz s' hmem, ?_, ?_⟩
    · refine le_trans ?_ hcount
      obtain ⟨A, B, rfl⟩ := List.append_of_mem hmem
      rw [List.flatten_append, List.flatten_cons, List.count_append, List.count_append]
      omega
    · rw [hprod k _ hr, hc, hc]
    · rw [← hc]
      exact hpc k _ y hr hy

omit [PyUnicode] in
theorem prod_around {pre post r : List Nat} {n : Nat} (h0 : 0 ∉ pre ∧ 0 ∉ post) :
    (pre ++ r ++ post).prod = (pre ++ n :: post).prod ↔ r.prod = n := by
  simp only [List.prod_append, List.prod_cons]
  have n1 : pre.prod ≠ 0 := prod_ne_zero'.2 h0.1
  have n2 : post.prod ≠ 0 := prod_ne_zero'.2 h0.2
  rw [Nat.mul_assoc]
  constructor
  · intro hp
    exact Nat.eq_of_mul_eq_mul_right (Nat.pos_of_ne_zero n2) (Nat.eq_of_mul_eq_mul_left (Nat.pos_of_ne_zero n1) hp)
  · intro h; rw [h]

/-- the case of an unknown length -/
theorem unpack_unknown {ops : PackOps α} (ho : PackModelled ops) {pattern : Str} {pre post : List Nat} {N : Nat}
    (hp : IsPackPattern pattern pre.length post.length) {x : Tensor α} (hx : x.shape = pre ++ N :: post)
    (h0 : 0 ∉ pre ∧ 0 ∉ post) {A B : List (List Int)} {s : List Int} (hge : ∀ t ∈ A ++ s :: B, ∀ d ∈ t, -1 ≤ d)
    (hs : -1 ∈ s) (hA : -1 ∉ A.flatten) (hB : -1 ∉ B.flatten) (ys : List (Tensor α)) :
    unpack ops x (A ++ s :: B) pattern = .ok ys ↔ ∃ a t b, List.Forall₂ Fills A a ∧ Fills s t ∧ List.Forall₂ Fills B b ∧
      s.count (-1) = 1 ∧ (0 : Int) ∉ s ∧ total a ≤ N ∧ total b ≤ N ∧ t.prod = N - total a - total b ∧
      List.Forall₂ (fun p y => IsPiece pre post x p.1 p.2 y) (starts 0 a ++ (total a, t) :: starts (N - total b) b) ys := by
  obtain ⟨c, hc⟩ : ∃ c : Nat → Nat, ∀ k, c k = clipSlice N ((splitPositions N (composedLengths (A ++ s :: B))).getD k 0) :=
    ⟨_, fun _ => rfl⟩
  rw [unpack_iff ho hp hx hge hc]
  have hcnt : (A ++ s :: B).flatten.count (-1) = s.count (-1) := by
    rw [List.flatten_append, List.flatten_cons, List.count_append, List.count_append, List.count_eq_zero.2 hA,
      List.count_eq_zero.2 hB]
    omega
  rw [hcnt]
  have hpos := List.count_pos_iff.2 hs
  -- for given lengths of the other shapes
  have key : ∀ (a : List (List Nat)) (t : List Nat) (b : List (List Nat)), List.Forall₂ Fills A a → List.Forall₂ Fills B b →
      ((∀ k r, (a ++ t :: b)[k]? = some r → r.prod = c (k + 1) - c k) ↔
        total a ≤ N ∧ total b ≤ N ∧ t.prod = N - total a - total b) ∧
      (total a ≤ N → total b ≤ N → ∀ k, (starts 0 a ++ (total a, t) :: starts (N - total b) b)[k]? =
        (a ++ t :: b)[k]?.map (fun r => (c k, r))) := by
    intro a t b fA fB
    have hlo : ∀ i, i ≤ (a.map List.prod).length → (splitPositions N (composedLengths (A ++ s :: B))).getD i 0 =
        ((((a.map List.prod).take i).sum : Nat) : Int) := by
      intro i hi
      rw [composedLengths_append, composedLengths_cons_unknown B hs, composedLengths_known fA hA, composedLengths_known fB hB,
        (splitPositions_unknown N _ _ (neg_one_not_mem_ofNat _)).1 i (by simpa using hi), ← List.map_take, sum_ofNat]
    have hhi : ∀ j, j ≤ (b.map List.prod).length →
        (splitPositions N (composedLengths (A ++ s :: B))).getD ((a.map List.prod).length + 1 + j) 0 =
          (N : Int) - ((((b.map List.prod).drop j).sum : Nat) : Int) := by
      intro j hj
      rw [composedLengths_append, composedLengths_cons_unknown B hs, composedLengths_known fA hA, composedLengths_known fB hB,
        (splitPositions_unknown N _ _ (neg_one_not_mem_ofNat _)).2 _ (by simp; omega) (by simp at hj ⊢; omega)]
      have hd : (((a.map List.prod).map Int.ofNat ++ -1 :: (b.map List.prod).map Int.ofNat).drop
          ((a.map List.prod).length + 1 + j)) = ((b.map List.prod).drop j).map Int.ofNat := by
        rw [List.drop_append, List.drop_of_length_le (by simp; omega)]
        simp only [List.length_map, show a.length + 1 + j - a.length = j + 1 from by omega, List.drop_succ_cons,
          List.nil_append, List.map_drop]
      rw [hd, sum_ofNat]
    obtain ⟨k1, k2⟩ := cut_positions (t := t.prod) hc hlo hhi
    refine ⟨?_, ?_⟩
    · unfold total
      rw [← k1]
      have e : a.map List.prod ++ t.prod :: b.map List.prod = (a ++ t :: b).map List.prod := by simp
      rw [e]
      constructor
      · intro h k v hv
        rw [List.getElem?_map, Option.map_eq_some_iff] at hv
        obtain ⟨r, hr, rfl⟩ := hv
        exact h k r hr
      · intro h k r hr
        exact h k _ (by rw [List.getElem?_map, hr]; rfl)
    · intro ta tb k
      obtain ⟨o1, o2⟩ := k2 ta tb
      simp only [List.length_map] at o1 o2
      rcases Nat.lt_trichotomy k a.length with h1 | h1 | h1
      · rw [List.getElem?_append_left (by rw [starts_length]; exact h1), List.getElem?_append_left h1, starts_get, o1 k (by omega)]
        simp
      · subst h1
        rw [List.getElem?_append_right (by rw [starts_length]), List.getElem?_append_right (by omega), starts_length,
          o1 _ (le_refl _)]
        simp [total, List.take_of_length_le]
      · obtain ⟨j, rfl⟩ : ∃ j, k = a.length + 1 + j := ⟨k - a.length - 1, by omega⟩
        rw [List.getElem?_append_right (by rw [starts_length]; omega), List.getElem?_append_right (by omega), starts_length,
          show a.length + 1 + j - a.length = j + 1 from by omega, List.getElem?_cons_succ, List.getElem?_cons_succ, starts_get]
        rcases hj : b[j]? with _ | r
        · rfl
        · have hj' : j < b.length := (List.getElem?_eq_some_iff.1 hj).1
          simp only [Option.map_some, o2 j (by omega), total]
  constructor
  · rintro ⟨h1, h2, rs, hf, hprod, hlen, hpc⟩
    obtain ⟨a, R', fA, f', rfl⟩ := forall₂_split_left hf
    obtain ⟨t, b, ht, fB, rfl⟩ := List.forall₂_cons_left_iff.1 f'
    obtain ⟨k1, k2⟩ := key a t b fA fB
    obtain ⟨ta, tb, tt⟩ := k1.1 (fun k r hr => (prod_around h0).1 (hprod k r hr))
    refine ⟨a, t, b, fA, ht, fB, by omega, (h2 s (by simp) hs).1, ta, tb, tt, forall₂_of_get ?_ ?_⟩
    · rw [← hlen]; simp [starts_length]
    · intro k p y hpk hy
      rw [k2 ta tb, Option.map_eq_some_iff] at hpk
      obtain ⟨r, hr, rfl⟩ := hpk
      exact hpc k r y hr hy
  · rintro ⟨a, t, b, fA, ht, fB, hone, hz, ta, tb, tt, hall⟩
    obtain ⟨k1, k2⟩ := key a t b fA fB
    refine ⟨by omega, ?_, a ++ t :: b, List.rel_append fA (.cons ht fB), ?_, ?_, ?_⟩
    · intro s' hs' hm
      refine ⟨?_, h0⟩
      rcases List.mem_append.1 hs' with h | h
      · exact absurd (List.mem_flatten.2 ⟨s', h, hm⟩) hA
      · rcases List.mem_cons.1 h with rfl | h
        · exact hz
        · exact absurd (List.mem_flatten.2 ⟨s', h, hm⟩) hB
    · intro k r hr
      exact (prod_around h0).2 (k1.2 ⟨ta, tb, tt⟩ k r hr)
    · rw [← hall.length_eq]; simp [starts_length]
    · intro k r y hr hy
      exact forall₂_get hall k (a := (c k, r)) (by rw [k2 ta tb, hr]; rfl) hy

/-- the case of known lengths -/
theorem unpack_known {ops : PackOps α} (ho : PackModelled ops) {pattern : Str} {pre post : List Nat} {N : Nat}
    (hp : IsPackPattern pattern pre.length post.length) {x : Tensor α} (hx : x.shape = pre ++ N :: post)
    (h0 : 0 ∉ pre ∧ 0 ∉ post) {ps : List (List Int)} (hne : ps ≠ []) (hge : ∀ t ∈ ps, ∀ d ∈ t, -1 ≤ d)
    (hk : -1 ∉ ps.flatten) (ys : List (Tensor α)) :
    unpack ops x ps pattern = .ok ys ↔ ∃ rs, List.Forall₂ Fills ps rs ∧ total rs = N ∧
      List.Forall₂ (fun p y => IsPiece pre post x p.1 p.2 y) (starts 0 rs) ys := by
  have conv : ∀ rs, total rs = N → (Packs pre post ys rs x ↔
      List.Forall₂ (fun p y => IsPiece pre post x p.1 p.2 y) (starts 0 rs) ys) := by
    intro rs ht
    constructor
    · intro h
      refine forall₂_of_get (by rw [starts_length, h.count]) ?_
      intro k p y hpk hy
      rw [starts_get, Option.map_eq_some_iff] at hpk
      obtain ⟨r, hr, rfl⟩ := hpk
      refine ⟨h.part k y r hy hr, fun i s j hi hs hj => ?_⟩
      rw [Nat.zero_add]
      exact (h.entry k y r hy hr i s j hi hs hj).symm
    · intro h
      have hget : ∀ (k : Nat) (y : Tensor α) (r : List Nat), ys[k]? = some y → rs[k]? = some r →
          IsPiece pre post x ((rs.map List.prod).take k).sum r y := by
        intro k y r hy hr
        have := forall₂_get h k (a := (0 + ((rs.map List.prod).take k).sum, r)) (by rw [starts_get, hr]; rfl) hy
        simpa using this
      refine ⟨by rw [← h.length_eq, starts_length], fun k y r hy hr => (hget k y r hy hr).shape, by rw [hx, ← ht]; rfl, ?_⟩
      intro k y r hy hr i s j hi hs hj
      exact ((hget k y r hy hr).entry i s j hi hs hj).symm
  constructor
  · intro h
    obtain ⟨rs, hr⟩ := unpack_resolves ho hp hx h0 hne hge (.inl hk) h
    obtain ⟨ys', hy', hpk⟩ := unpack_exists ho hp hx hr (fun _ => h0)
    rw [hy'] at h
    cases h
    exact ⟨rs, hr.fills, hr.total, (conv rs hr.total).1 hpk⟩
  · rintro ⟨rs, hf, ht, hall⟩
    have hr : Resolves ps N rs := ⟨hf, by rw [List.count_eq_zero.2 hk]; omega,
      fun s hs hm => absurd (List.mem_flatten.2 ⟨s, hs, hm⟩) hk, ht⟩
    obtain ⟨ys', hy', hpk⟩ := unpack_exists ho hp hx hr (fun _ => h0)
    rw [hy', ((conv rs ht).2 hall).parts_unique hpk]

end

end Einops
