import Verif.Proofs.BatchAxes
import Verif.Props.EinsumLaws
import Verif.Props.Slices
import Verif.Props.Packing
import Verif.Props.EinMixLaws

/-!
# C73: a batch axis in calls of `einsum`, `pack`, `unpack` and `EinMix`
-/

namespace Einops

universe u

section
variable {α : Type u} [PyUnicode] {p p' : Str} {N q b a : Nat}

/-- **C73** `einsum` with a new axis that is in the output: the slices of the result are the results for the slices of the
tensors that have the axis. -/
theorem C73_einsum [CommSemiring α] {f : Str → List (Tensor α) → Py (Tensor α)} (hf : EinsumLawful f)
    {ins : List (BatchInput α)} {C D : List ESym} {w : Str} {n : Nat} {len : AxisMap}
    (h : IsEinsum p (ins.map (·.term)) (C ++ D)) (h' : IsEinsum p' (ins.map (·.term')) (C ++ .name w :: D))
    (h52 : distinct ((ins.map (·.term')).flatMap symNames) ≤ 52) (hb : ∀ i ∈ ins, Batched w n N i)
    (hx : EinsumFits len n (ins.map (·.term')) (C ++ .name w :: D) (ins.map (·.whole))) :
    ∃ y ys, einsum f ((ins.map (·.whole)).map .tensor ++ [.str p']) = .ok y ∧ SlicesAre y (symAxes n C).length N ys ∧
      ∀ i < N, einsum f ((ins.map (·.parts i)).map .tensor ++ [.str p]) = .ok (ys i) := by
  obtain ⟨y, e1, c1⟩ := einsum_contracts hf h' h52 hx
  have hwo : w ∈ symNames (C ++ .name w :: D) := (symNames_insert _ _ _ _).2 (.inl rfl)
  have hshape : ∀ t ∈ ins, t.whole.shape = (symAxes n t.term').map len := by
    have := hx.shapes
    rw [List.forall₂_map_left_iff, List.forall₂_map_right_iff, List.forall₂_same] at this
    exact this
  have hN : len (.str w) = N := by
    obtain ⟨t, ht, hwt⟩ := hx.within w hwo
    obtain ⟨c, hc, rfl⟩ := List.mem_map.1 ht
    exact (hb c hc).len hwt (hshape c hc)
  have hell : Axis.str w ∉ ellAxes n := by
    intro hmem
    obtain ⟨i, -, e⟩ := List.mem_map.1 hmem
    simp only [Axis.str.injEq] at e
    have hne : natStr i ≠ [] := Nat.toDigits_ne_nil
    obtain ⟨c, l, hcl⟩ := List.exists_cons_of_ne_nil hne
    exact h'.names _ (List.mem_cons_self ..) w hwo c l (by rw [← e, hcl]; rfl)
  have hnd := hx.nodup
  rw [symAxes_insert] at hnd
  have hnd2 := List.nodup_middle.1 hnd
  rw [← symAxes_append'] at hnd2
  have hout : w ∉ symNames (C ++ D) := fun hm => (List.nodup_cons.1 hnd2).1 (mem_symAxes.2 (.inr ⟨w, hm, rfl⟩))
  have hs := c1.1
  rw [symAxes_insert, List.map_append, List.map_cons, hN] at hs
  obtain ⟨ys, hys⟩ := exists_slices hs
  rw [List.length_map] at hys
  refine ⟨y, ys, e1, hys, fun i hi => ?_⟩
  have c2 := contracts_batched hb hell hout hN hys c1 hi
  have hx2 : EinsumFits len n (ins.map (·.term)) (C ++ D) (ins.map (·.parts i)) := by
    refine ⟨?_, ?_, (List.nodup_cons.1 hnd2).2, ?_, ?_⟩
    · intro he
      apply hx.some_input
      rw [List.map_eq_nil_iff] at he ⊢
      exact he
    · rw [List.forall₂_map_left_iff, List.forall₂_map_right_iff, List.forall₂_same]
      exact fun c hc => (hb c hc).shape (hshape c hc) hN hi
    · intro v hv
      have hvw : v ≠ w := fun e => hout (e ▸ hv)
      obtain ⟨t, ht, hvt⟩ := hx.within v ((symNames_insert _ _ _ _).2 (.inr hv))
      obtain ⟨c, hc, rfl⟩ := List.mem_map.1 ht
      exact ⟨c.term, List.mem_map_of_mem hc, ((hb c hc).names hvw).1 hvt⟩
    · have := hx.ellipsis
      simp only [List.mem_map, exists_exists_and_eq_and, List.mem_append, List.mem_cons, reduceCtorEq, false_or] at this ⊢
      rw [this]
      exact exists_congr fun c => and_congr_right fun hc => (hb c hc).ell
  have h52' : distinct ((ins.map (·.term)).flatMap symNames) ≤ 52 := by
    refine le_trans ?_ h52
    unfold distinct
    refine (List.subperm_of_subset (List.nodup_dedup _) (fun v hv => ?_)).length_le
    rw [List.mem_dedup, List.mem_flatMap] at hv ⊢
    obtain ⟨t, ht, hv⟩ := hv
    obtain ⟨c, hc, rfl⟩ := List.mem_map.1 ht
    exact ⟨c.term', List.mem_map_of_mem hc, ((hb c hc).names (fun e => (hb c hc).fresh (e ▸ hv))).2 hv⟩
  obtain ⟨z, e3, c3⟩ := einsum_contracts hf h h52' hx2
  rw [e3, c3.unique (List.nodup_cons.1 hnd2).2 c2]

variable {ops : PackOps α}

theorem split_length {l : List Nat} {q b : Nat} (h : l.length = q + b) : ∃ u v, l = u ++ v ∧ u.length = q ∧ v.length = b :=
  ⟨l.take q, l.drop q, (List.take_append_drop _ _).symm, by rw [List.length_take]; omega, by rw [List.length_drop]; omega⟩

theorem split_length' {l : List Nat} {q b : Nat} (h : l.length = q + 1 + b) :
    ∃ u M v, l = u ++ M :: v ∧ u.length = q ∧ v.length = b := by
  obtain ⟨u, v, rfl, h1, h2⟩ := split_length (show l.length = q + (1 + b) by omega)
  obtain ⟨M, v, rfl⟩ := List.exists_cons_of_ne_nil (l := v) (by rintro rfl; simp at h2; omega)
  exact ⟨u, M, v, rfl, h1, by simp at h2; omega⟩

omit [PyUnicode] in
/-- the length of the axis is the length in the shape -/
theorem SlicesAre.length_eq {x : Tensor α} {xs : Nat → Tensor α} {u v : List Nat} {M : Nat} (h : SlicesAre x u.length N xs)
    (hx : x.shape = u ++ M :: v) : M = N := by
  obtain ⟨pre, post, h1, h2, -⟩ := h
  rw [h1] at hx
  obtain ⟨-, e⟩ := List.append_inj hx h2
  cases e
  rfl

/-- **C73** `pack` with a new axis before the star packs slice by slice. -/
theorem C73_pack_before (ho : PackModelled ops) (hp : IsPackPattern p (q + b) a) (hp' : IsPackPattern p' (q + 1 + b) a)
    (h0 : 0 < N) {xs : List (Tensor α)} {fs : List (Nat → Tensor α)}
    (hx : List.Forall₂ (fun x f => SlicesAre x q N f) xs fs) {y : Tensor α} {ps : List (List Nat)} :
    pack ops xs p' = .ok (y, ps) ↔
      ∃ ys, SlicesAre y q N ys ∧ ∀ i < N, pack ops (fs.map (· i)) p = .ok (ys i, ps) := by
  have hl := hx.length_eq
  simp only [pack_iff ho]
  constructor
  · rintro ⟨hne, pre, post, hp2, z1, z2, hpk⟩
    obtain ⟨l1, l2⟩ := hp'.unique hp2
    obtain ⟨u, M, v, rfl, hu, hv⟩ := split_length' l1.symm
    subst hu hv
    have hM : M = N := by
      cases hx with
      | nil => exact absurd rfl hne
      | @cons x f xs fs h1 _ =>
        have hc := hpk.count
        cases ps with
        | nil => simp at hc
        | cons r ps => exact h1.length_eq (by rw [hpk.part 0 x r rfl rfl, List.append_assoc, List.append_assoc]; rfl)
    subst hM
    obtain ⟨ys, hys⟩ := exists_slices (x := y) (pre := u) (n := M) (by rw [hpk.whole, List.append_assoc]; rfl)
    refine ⟨ys, hys, fun i hi => ⟨?_, u ++ v, post, ?_, ?_, z2, (packs_before h0 hys hx).1 hpk i hi⟩⟩
    · rw [Ne, List.map_eq_nil_iff, ← List.length_eq_zero_iff, ← hl, List.length_eq_zero_iff]
      exact hne
    · rw [List.length_append, ← l2]; exact hp
    · simp only [List.mem_append, List.mem_cons, not_or] at z1 ⊢
      exact ⟨z1.1, z1.2.2⟩
  · rintro ⟨ys, hys, h⟩
    obtain ⟨hne, pre, post, hp2, z1, z2, hpk⟩ := h 0 h0
    obtain ⟨l1, l2⟩ := hp.unique hp2
    obtain ⟨u, v, rfl, hu, hv⟩ := split_length l1.symm
    subst hu hv
    refine ⟨?_, u ++ N :: v, post, ?_, ?_, z2, (packs_before h0 hys hx).2 fun i hi => ?_⟩
    · rw [Ne, List.map_eq_nil_iff, ← List.length_eq_zero_iff, ← hl, List.length_eq_zero_iff] at hne
      exact hne
    · rw [List.length_append, List.length_cons, ← l2, ← Nat.add_assoc, Nat.add_right_comm]; exact hp'
    · simp only [List.mem_append, List.mem_cons, not_or] at z1 ⊢
      exact ⟨z1.1, by omega, z1.2⟩
    · obtain ⟨-, pre', post', hp3, -, -, hpk'⟩ := h i hi
      obtain ⟨l3, l4⟩ := hp.unique hp3
      have hsh : (ys i).shape = (ys 0).shape := by
        obtain ⟨_, _, -, -, h3⟩ := hys
        rw [(h3 i hi).1, (h3 0 h0).1]
      rw [hpk.whole, hpk'.whole] at hsh
      obtain ⟨e1, e2⟩ := List.append_inj hsh (by rw [← l3, List.length_append])
      cases e2
      rw [← e1]
      exact hpk'

/-- **C73** `pack` with a new axis after the star packs slice by slice.  (The axis is counted from the end: the tensors
may have different numbers of dimensions.) -/
theorem C73_pack_after (ho : PackModelled ops) (hp : IsPackPattern p b (q + a)) (hp' : IsPackPattern p' b (q + 1 + a))
    (h0 : 0 < N) {xs : List (Tensor α)} {fs : List (Nat → Tensor α)}
    (hx : List.Forall₂ (fun x f => SlicesAre x (x.ndim - (a + 1)) N f) xs fs) {y : Tensor α} {ps : List (List Nat)} :
    pack ops xs p' = .ok (y, ps) ↔
      ∃ ys, SlicesAre y (b + 1 + q) N ys ∧ ∀ i < N, pack ops (fs.map (· i)) p = .ok (ys i, ps) := by
  have hl := hx.length_eq
  simp only [pack_iff ho]
  constructor
  · rintro ⟨hne, pre, post, hp2, z1, z2, hpk⟩
    obtain ⟨l1, l2⟩ := hp'.unique hp2
    obtain ⟨u, M, v, rfl, hu, hv⟩ := split_length' l2.symm
    subst hu hv l1
    have hM : M = N := by
      cases hx with
      | nil => exact absurd rfl hne
      | @cons x f xs fs h1 _ =>
        have hc := hpk.count
        cases ps with
        | nil => simp at hc
        | cons r ps =>
          have hs : x.shape = (pre ++ r ++ u) ++ M :: v := by rw [hpk.part 0 x r rfl rfl]; simp
          have hd : x.ndim - (v.length + 1) = (pre ++ r ++ u).length := by
            unfold Tensor.ndim; rw [hs]; simp; omega
          rw [hd] at h1
          exact h1.length_eq hs
    subst hM
    obtain ⟨ys, hys⟩ := exists_slices (x := y) (pre := pre ++ (ps.map List.prod).sum :: u) (n := M) (post := v)
      (by rw [hpk.whole]; simp)
    have hpl : (pre ++ (ps.map List.prod).sum :: u).length = pre.length + 1 + u.length := by simp; omega
    rw [hpl] at hys
    refine ⟨ys, hys, fun i hi => ⟨?_, pre, u ++ v, ?_, z1, ?_, (packs_after h0 hys hx).1 hpk i hi⟩⟩
    · rw [Ne, List.map_eq_nil_iff, ← List.length_eq_zero_iff, ← hl, List.length_eq_zero_iff]
      exact hne
    · rw [List.length_append]; exact hp
    · simp only [List.mem_append, List.mem_cons, not_or] at z2 ⊢
      exact ⟨z2.1, z2.2.2⟩
  · rintro ⟨ys, hys, h⟩
    obtain ⟨hne, pre, post, hp2, z1, z2, hpk⟩ := h 0 h0
    obtain ⟨l1, l2⟩ := hp.unique hp2
    obtain ⟨u, v, rfl, hu, hv⟩ := split_length l2.symm
    subst hu hv l1
    refine ⟨?_, pre, u ++ N :: v, ?_, z1, ?_, (packs_after h0 hys hx).2 fun i hi => ?_⟩
    · rw [Ne, List.map_eq_nil_iff, ← List.length_eq_zero_iff, ← hl, List.length_eq_zero_iff] at hne
      exact hne
    · rw [List.length_append, List.length_cons, ← Nat.add_assoc, Nat.add_right_comm]; exact hp'
    · simp only [List.mem_append, List.mem_cons, not_or] at z2 ⊢
      exact ⟨z2.1, by omega, z2.2⟩
    · obtain ⟨-, pre', post', hp3, -, -, hpk'⟩ := h i hi
      obtain ⟨l3, l4⟩ := hp.unique hp3
      have hsh : (ys i).shape = (ys 0).shape := by
        obtain ⟨_, _, -, -, h3⟩ := hys
        rw [(h3 i hi).1, (h3 0 h0).1]
      rw [hpk.whole, hpk'.whole] at hsh
      obtain ⟨e1, e2⟩ := List.append_inj hsh l3.symm
      cases e2
      rw [← e1]
      exact hpk'

omit [PyUnicode] in
theorem exists_forall₂ {β γ : Type*} {Q : β → γ → Prop} {l : List β} (h : ∀ b ∈ l, ∃ c, Q b c) : ∃ l', List.Forall₂ Q l l' := by
  induction l with
  | nil => exact ⟨[], .nil⟩
  | cons b l ih =>
    obtain ⟨c, hc⟩ := h b (by simp)
    obtain ⟨l', hl'⟩ := ih (fun b hb => h b (by simp [hb]))
    exact ⟨c :: l', .cons hc hl'⟩

/-- **C73** `unpack` with a new axis before the star unpacks slice by slice. -/
theorem C73_unpack_before (ho : PackModelled ops) (hp : IsPackPattern p (q + b) a) (hp' : IsPackPattern p' (q + 1 + b) a)
    (h0 : 0 < N) {x : Tensor α} {xs : Nat → Tensor α} (hx : SlicesAre x q N xs) (hd : x.ndim = q + 1 + b + 1 + a)
    {ps : List (List Int)} (hge : ∀ s ∈ ps, ∀ d ∈ s, -1 ≤ d) {zs : List (Tensor α)} :
    unpack ops x ps p' = .ok zs ↔ ∃ fs : List (Nat → Tensor α), List.Forall₂ (fun z f => SlicesAre z q N f) zs fs ∧
      ∀ i < N, unpack ops (xs i) ps p = .ok (fs.map (· i)) := by
  obtain ⟨w, M, post, hw, l1, l2⟩ := split_length' (l := x.shape) hd
  obtain ⟨u, K, v, rfl, hu, hv⟩ := split_length' l1
  subst hu hv l2
  obtain rfl : K = N := hx.length_eq (by rw [hw, List.append_assoc]; rfl)
  have hxi : ∀ i < K, (xs i).shape = (u ++ v) ++ M :: post := fun i hi => by
    rw [List.append_assoc]
    exact hx.shape (by rw [hw, List.append_assoc]; rfl) hi
  rw [← List.length_append] at hp
  have hz : ∀ t : Prop, (t ∧ 0 ∉ u ++ K :: v ∧ 0 ∉ post) ↔ (t ∧ 0 ∉ u ++ v ∧ 0 ∉ post) := by
    intro t
    simp only [List.mem_append, List.mem_cons, not_or]
    have : ¬ 0 = K := by omega
    tauto
  have hprod : ∀ r : List Nat, (u ++ K :: v ++ r ++ post).prod = K * (u ++ v ++ r ++ post).prod := by
    intro r
    simp only [List.prod_append, List.prod_cons]
    ring
  have hp'' : IsPackPattern p' (u ++ K :: v).length post.length := by
    have e : (u ++ K :: v).length = u.length + 1 + v.length := l1
    rw [e]
    exact hp'
  have hprod2 : ∀ (r : List Nat) (m : Nat), ((u ++ K :: v) ++ r ++ post).prod = ((u ++ K :: v) ++ m :: post).prod ↔
      ((u ++ v) ++ r ++ post).prod = ((u ++ v) ++ m :: post).prod := by
    intro r m
    have e := hprod [m]
    simp only [List.append_assoc, List.singleton_append, List.cons_append, List.nil_append] at e hprod ⊢
    rw [hprod, e]
    exact Nat.mul_right_inj (by omega)
  constructor
  · intro h
    obtain ⟨k1, k2, rs, k3, k4, k5, k6⟩ := (unpack_iff ho hp'' hw hge (fun _ => rfl) zs).1 h
    have hsl : ∀ z ∈ zs, ∃ f, SlicesAre z u.length K f := by
      intro z hz
      obtain ⟨k, hk⟩ := List.mem_iff_getElem?.1 hz
      obtain ⟨hk', -⟩ := List.getElem?_eq_some_iff.1 hk
      have hs := (k6 k _ z (List.getElem?_eq_getElem (k5 ▸ hk')) hk).shape
      exact exists_slices (by rw [hs, List.append_assoc, List.append_assoc]; rfl)
    obtain ⟨fs, hfs⟩ := exists_forall₂ hsl
    refine ⟨fs, hfs, fun i hi => (unpack_iff ho hp (hxi i hi) hge (fun _ => rfl) _).2
      ⟨k1, fun s hs hm => (hz _).1 (k2 s hs hm), rs, k3, fun k r hr => (hprod2 _ _).1 (k4 k r hr), ?_, fun k r t hr ht => ?_⟩⟩
    · rw [k5, hfs.length_eq, List.length_map]
    · rw [List.getElem?_map, Option.map_eq_some_iff] at ht
      obtain ⟨f, hf, rfl⟩ := ht
      obtain ⟨z, hzk, hs⟩ := forall₂_get_left hfs.flip hf
      have hpc := k6 k r z hr hzk
      exact (isPiece_before h0 hx hs).1 hpc i hi
  · rintro ⟨fs, hfs, h⟩
    have h' := fun i hi => (unpack_iff ho hp (hxi i hi) hge (fun _ => rfl) _).1 (h i hi)
    obtain ⟨k1, k2, rs, k3, k4, k5, k6⟩ := h' 0 h0
    rw [List.length_map] at k5
    refine (unpack_iff ho hp'' hw hge (fun _ => rfl) zs).2 ⟨k1, fun s hs hm => (hz _).2 (k2 s hs hm), rs, k3,
      fun k r hr => (hprod2 _ _).2 (k4 k r hr), by rw [k5, hfs.length_eq], fun k r z hr hzk => ?_⟩
    obtain ⟨f, hf, hs⟩ := forall₂_get_left hfs hzk
    have hpc : ∀ i < K, IsPiece (u ++ v) post (xs i) (clipSlice M ((splitPositions M (composedLengths ps)).getD k 0)) r (f i) := by
      intro i hi
      obtain ⟨-, -, rs', -, -, m5, m6⟩ := h' i hi
      rw [List.length_map] at m5
      obtain ⟨hk, -⟩ := List.getElem?_eq_some_iff.1 hr
      have hr' := List.getElem?_eq_getElem (l := rs') (i := k) (by omega)
      have p1 := m6 k _ (f i) hr' (by rw [List.getElem?_map, hf]; rfl)
      have p0 := k6 k r (f 0) hr (by rw [List.getElem?_map, hf]; rfl)
      have hsh : (f i).shape = (f 0).shape := by
        obtain ⟨_, _, -, -, h3⟩ := hs
        rw [(h3 i hi).1, (h3 0 h0).1]
      rw [p1.shape, p0.shape] at hsh
      have e := List.append_cancel_left (List.append_cancel_right hsh)
      rwa [e] at p1
    exact (isPiece_before h0 hx hs).2 hpc

/-- **C73** `unpack` with a new axis after the star unpacks slice by slice. -/
theorem C73_unpack_after (ho : PackModelled ops) (hp : IsPackPattern p b (q + a)) (hp' : IsPackPattern p' b (q + 1 + a))
    (h0 : 0 < N) {x : Tensor α} {xs : Nat → Tensor α} (hx : SlicesAre x (b + 1 + q) N xs) (hd : x.ndim = b + 1 + (q + 1 + a))
    {ps : List (List Int)} (hge : ∀ s ∈ ps, ∀ d ∈ s, -1 ≤ d) {zs : List (Tensor α)} :
    unpack ops x ps p' = .ok zs ↔
      ∃ fs : List (Nat → Tensor α), List.Forall₂ (fun z f => SlicesAre z (z.ndim - (a + 1)) N f) zs fs ∧
        ∀ i < N, unpack ops (xs i) ps p = .ok (fs.map (· i)) := by
  obtain ⟨pre, M, w, hw, l1, l2⟩ := split_length' (l := x.shape) hd
  obtain ⟨u, K, v, rfl, hu, hv⟩ := split_length' l2
  subst hu hv l1
  have hpl : (pre ++ M :: u).length = pre.length + 1 + u.length := by simp; omega
  have hx2 := hx
  rw [← hpl] at hx2
  obtain rfl : K = N := hx2.length_eq (v := v) (by rw [hw]; simp)
  have hxi : ∀ i < K, (xs i).shape = pre ++ M :: (u ++ v) := fun i hi => by
    rw [hx2.shape (post := v) (by rw [hw]; simp) hi]; simp
  rw [← List.length_append] at hp
  have hz : ∀ t : Prop, (t ∧ 0 ∉ pre ∧ 0 ∉ u ++ K :: v) ↔ (t ∧ 0 ∉ pre ∧ 0 ∉ u ++ v) := by
    intro t
    simp only [List.mem_append, List.mem_cons, not_or]
    have : ¬ 0 = K := by omega
    tauto
  have hprod : ∀ r : List Nat, (pre ++ r ++ (u ++ K :: v)).prod = K * (pre ++ r ++ (u ++ v)).prod := by
    intro r
    simp only [List.prod_append, List.prod_cons]
    ring
  have hp'' : IsPackPattern p' pre.length (u ++ K :: v).length := by
    have e : (u ++ K :: v).length = u.length + 1 + v.length := l2
    rw [e]
    exact hp'
  have hprod2 : ∀ (r : List Nat) (m : Nat), (pre ++ r ++ (u ++ K :: v)).prod = (pre ++ m :: (u ++ K :: v)).prod ↔
      (pre ++ r ++ (u ++ v)).prod = (pre ++ m :: (u ++ v)).prod := by
    intro r m
    have e := hprod [m]
    simp only [List.append_assoc, List.singleton_append, List.cons_append, List.nil_append] at e hprod ⊢
    rw [hprod, e]
    exact Nat.mul_right_inj (by omega)
  constructor
  · intro h
    obtain ⟨k1, k2, rs, k3, k4, k5, k6⟩ := (unpack_iff ho hp'' hw hge (fun _ => rfl) zs).1 h
    have hsl : ∀ z ∈ zs, ∃ f, SlicesAre z (z.ndim - (v.length + 1)) K f := by
      intro z hz
      obtain ⟨k, hk⟩ := List.mem_iff_getElem?.1 hz
      obtain ⟨hk', -⟩ := List.getElem?_eq_some_iff.1 hk
      have hs := (k6 k _ z (List.getElem?_eq_getElem (k5 ▸ hk')) hk).shape
      have hs' : z.shape = (pre ++ rs[k]'(k5 ▸ hk') ++ u) ++ K :: v := by rw [hs]; simp
      have hl : z.ndim - (v.length + 1) = (pre ++ rs[k]'(k5 ▸ hk') ++ u).length := by
        unfold Tensor.ndim; rw [hs']; simp; omega
      rw [hl]
      exact exists_slices hs'
    obtain ⟨fs, hfs⟩ := exists_forall₂ hsl
    refine ⟨fs, hfs, fun i hi => (unpack_iff ho hp (hxi i hi) hge (fun _ => rfl) _).2
      ⟨k1, fun s hs hm => (hz _).1 (k2 s hs hm), rs, k3, fun k r hr => (hprod2 _ _).1 (k4 k r hr), ?_, fun k r t hr ht => ?_⟩⟩
    · rw [k5, hfs.length_eq, List.length_map]
    · rw [List.getElem?_map, Option.map_eq_some_iff] at ht
      obtain ⟨f, hf, rfl⟩ := ht
      obtain ⟨z, hzk, hs⟩ := forall₂_get_left hfs.flip hf
      have hpc := k6 k r z hr hzk
      replace hs : SlicesAre z (z.ndim - (v.length + 1)) K f := hs
      have hl : z.ndim - (v.length + 1) = (pre ++ r ++ u).length := by
        unfold Tensor.ndim; rw [hpc.shape]; simp; omega
      rw [hl] at hs
      exact (isPiece_after h0 hx hs).1 hpc i hi
  · rintro ⟨fs, hfs, h⟩
    have h' := fun i hi => (unpack_iff ho hp (hxi i hi) hge (fun _ => rfl) _).1 (h i hi)
    obtain ⟨k1, k2, rs, k3, k4, k5, k6⟩ := h' 0 h0
    rw [List.length_map] at k5
    refine (unpack_iff ho hp'' hw hge (fun _ => rfl) zs).2 ⟨k1, fun s hs hm => (hz _).2 (k2 s hs hm), rs, k3,
      fun k r hr => (hprod2 _ _).2 (k4 k r hr), by rw [k5, hfs.length_eq], fun k r z hr hzk => ?_⟩
    obtain ⟨f, hf, hs⟩ := forall₂_get_left hfs hzk
    have hpc : ∀ i < K, IsPiece pre (u ++ v) (xs i) (clipSlice M ((splitPositions M (composedLengths ps)).getD k 0)) r (f i) := by
      intro i hi
      obtain ⟨-, -, rs', -, -, m5, m6⟩ := h' i hi
      rw [List.length_map] at m5
      obtain ⟨hk, -⟩ := List.getElem?_eq_some_iff.1 hr
      have hr' := List.getElem?_eq_getElem (l := rs') (i := k) (by omega)
      have p1 := m6 k _ (f i) hr' (by rw [List.getElem?_map, hf]; rfl)
      have p0 := k6 k r (f 0) hr (by rw [List.getElem?_map, hf]; rfl)
      have hsh : (f i).shape = (f 0).shape := by
        obtain ⟨_, _, -, -, h3⟩ := hs
        rw [(h3 i hi).1, (h3 0 h0).1]
      rw [p1.shape, p0.shape] at hsh
      have e := List.append_cancel_left (List.append_cancel_right hsh)
      rwa [e] at p1
    have hl : z.ndim - (v.length + 1) = (pre ++ r ++ u).length := by
      obtain ⟨c, d, e1, e2, e3⟩ := hs
      have h4 := (hpc 0 h0).shape
      rw [(e3 0 h0).1] at h4
      have h5 := congrArg List.length h4
      unfold Tensor.ndim at e2 ⊢
      rw [e1] at e2 ⊢
      simp at h5 e2 ⊢
      omega
    rw [hl] at hs
    exact (isPiece_after h0 hx hs).2 hpc


/-! ### EinMix -/

omit [PyUnicode] in
theorem Mixes.slices [CommSemiring α] {len : AxisMap} {c : Axis} {L₁ L₂ R₁ R₂ : List (List Axis)} {W : List Axis}
    {x w y : Tensor α} {xs ys : Nat → Tensor α} {c₁ c₂ : AxisMap → α} (hn : len c = N) (hL : c ∉ (L₁ ++ L₂).flatten)
    (hR : c ∉ (R₁ ++ R₂).flatten) (hW : c ∉ W) (hx : SlicesAre x L₁.length N xs) (hy : SlicesAre y R₁.length N ys)
    {i : Nat} (hc : ∀ env, c₁ (setCoord env c i) = c₂ env)
    (h : Mixes len (L₁ ++ [c] :: L₂) W (R₁ ++ [c] :: R₂) x w c₁ y) (hi : i < N) :
    Mixes len (L₁ ++ L₂) W (R₁ ++ R₂) (xs i) w c₂ (ys i) := by
  refine ⟨(slice_shape hn hy (by omega)).1 h.1 i hi, fun S hS hm env henv => ?_⟩
  have ec : setCoord env c i c = i := by simp [setCoord]
  have eo : ∀ a, a ≠ c → setCoord env c i a = env a := fun a ha => by simp [setCoord, ha]
  have hcS : c ∉ S := fun hs => by
    rcases ((hm c).1 hs).1 with h | h
    · exact hL h
    · exact hW h
  have h3 := h.2 S hS (fun a => by
    rw [hm, flatten_insert, flatten_insert]
    by_cases ha : a = c
    · subst ha
      exact iff_of_false (fun h => h.1.elim hL hW) (fun h => h.2 (.inl rfl))
    · simp only [ha, false_or]) (setCoord env c i) (fun a ha => by
    by_cases hac : a = c
    · subst hac; rw [ec, hn]; exact hi
    · rw [eo a hac]
      exact henv a (((flatten_insert _ _ _ _).1 ha).resolve_left hac))
  have e1 : (loops len S (setCoord env c i)).map (fun e => (x.atAxes (L₁ ++ [c] :: L₂) len e).getD 0 * entry w (W.map e)) =
      (loops len S (setCoord env c i)).map (fun e => ((xs i).atAxes (L₁ ++ L₂) len e).getD 0 * entry w (W.map e)) := by
    apply List.map_congr_left
    intro e he
    have : e c = i := ((mem_loops he).1 c hcS).trans ec
    rw [slice_at hx (by rw [this]; exact hi), this]
  have e2 := loops_relabel (φ := id) (len := len) (len' := len) (A := (L₁ ++ L₂).flatten ++ W)
    (fun _ _ _ _ h => h) (F := fun e => ((xs i).atAxes (L₁ ++ L₂) len e).getD 0 * entry w (W.map e))
    (G := fun e => ((xs i).atAxes (L₁ ++ L₂) len e).getD 0 * entry w (W.map e))
    (fun e e' he => by
      have k1 := atAxes_congr (x := xs i) (L := L₁ ++ L₂) (len := len) (len' := len) (env := e) (env' := e') (fun _ _ => rfl)
        (fun a ha => he a (List.mem_append_left _ ha))
      have k2 : W.map e = W.map e' := List.map_congr_left (fun a ha => he a (List.mem_append_right _ ha))
      simp only [k1, k2])
    (D := S) (fun a ha => List.mem_append.2 ((hm a).1 ha).1) (fun _ _ => rfl) (env := env) (env' := setCoord env c i)
    (fun a ha => (eo a (fun e => by
      subst e
      rcases List.mem_append.1 ha with h | h
      · exact hL h
      · exact hW h)).symm)
  rw [List.map_id] at e2
  rw [e1, ← e2, slice_at hy (by rw [ec]; exact hi), ec, hc] at h3
  rw [← h3]
  exact atAxes_congr (fun _ _ => rfl) (fun a ha => (eo a (fun hc => hR (hc ▸ ha))).symm)

/-- the same bias for a layer with one more axis: a dimension of length 1 more -/
inductive UnitAt (k : Nat) : Option (Tensor α) → Option (Tensor α) → Prop
  | none : UnitAt k .none .none
  | some {t t' : Tensor α} : SlicesAre t' k 1 (fun _ => t) → UnitAt k (.some t) (.some t')

/-- **C73** `EinMix` with a new axis that is on both sides, but not in the weight and not in the bias, applies the layer
without the axis to every slice, with the same weight and bias.  (The bias has a dimension of length 1 more.) -/
theorem C73_einmix [CommSemiring α] {so so' : Nat → SetOrder} {weight : Str} {bias : Option Str} {kw : List (Str × Size)}
    {A B C D GW GB : List Elem} {v : Str} {m m' : EinMix α} {call : Layer α → Tensor α → Py (Tensor α)}
    {f : Str → List (Tensor α) → Py (Tensor α)} {L₁ L₂ R₁ R₂ : List (List Axis)} {len : AxisMap} {x w : Tensor α}
    {xs : Nat → Tensor α} {t t' : Option (Tensor α)} (hv : IsName false v)
    (h : ∀ i < N, LegalMix so p weight bias kw m (xs i).shape (A ++ B) (C ++ D) GW GB (L₁ ++ L₂) (R₁ ++ R₂) len)
    (h' : LegalMix so' p' weight bias kw m' x.shape (A ++ .bare v :: B) (C ++ .bare v :: D) GW GB (L₁ ++ [.str v] :: L₂)
      (R₁ ++ [.str v] :: R₂) len)
    (hW : v ∉ sideWords GW) (hB : v ∉ sideWords GB) (hcall : LayerCall call) (hf : EinsumLawful f)
    (hw : w.shape = m.weightShape ∧ w.shape = m'.weightShape) (hb : t.map Tensor.shape = m.biasShape)
    (hb' : t'.map Tensor.shape = m'.biasShape) (hu : UnitAt (nameWords C).length t t') (hx : SlicesAre x L₁.length N xs) :
    ∃ y ys, m'.forward call f w t' x = .ok y ∧ SlicesAre y R₁.length N ys ∧ ∀ i < N, m.forward call f w t (xs i) = .ok (ys i) := by
  obtain ⟨y, e1, c1⟩ := h'.result hcall hf hw.2 hb'
  have hN : len (.str v) = N := by
    have hs := h'.fits.shape_eq
    rw [List.map_append, List.map_cons, groupSize_singleton] at hs
    rw [show L₁.length = (L₁.map (groupSize len)).length by simp] at hx
    exact hx.length_eq hs
  have ys := c1.1
  rw [List.map_append, List.map_cons, groupSize_singleton, hN] at ys
  obtain ⟨ys, hys⟩ := exists_slices ys
  rw [List.length_map] at hys
  refine ⟨y, ys, e1, hys, fun i hi => ?_⟩
  obtain ⟨z, e2, c2⟩ := (h i hi).result hcall hf hw.1 hb
  have hWA : Axis.str v ∉ (sideWords GW).map Axis.str := by
    intro hm
    obtain ⟨u, hu, e⟩ := List.mem_map.1 hm
    cases e
    exact hW hu
  have fresh : ∀ {P Q : List (List Axis)}, (P ++ [.str v] :: Q).flatten.Nodup → Axis.str v ∉ (P ++ Q).flatten := by
    intro P Q h
    rw [List.flatten_append, List.flatten_cons, List.singleton_append] at h
    rw [List.flatten_append]
    exact (List.nodup_cons.1 (List.nodup_middle.1 h)).1
  have hLn : (L₁ ++ [Axis.str v] :: L₂).flatten.Nodup := by
    obtain ⟨l, r, -, hl, -⟩ := h'.written
    obtain ⟨n, -, e, -, -⟩ := h'.groups
    rw [e]
    exact side_flatten_nodup hl 0 n
  have hbias : ∀ env, biasAt (C ++ .bare v :: D) GB t' (setCoord env (.str v) i) = biasAt (C ++ D) GB t env := by
    intro env
    have hn : nameWords (C ++ .bare v :: D) = nameWords C ++ v :: nameWords D := by
      simp [nameWords, axisWords, sideWords, Elem.words, isName_not_number false hv, isName_ne_dots hv]
    have hn' : nameWords (C ++ D) = nameWords C ++ nameWords D := by simp [nameWords, axisWords, sideWords]
    have hfr : v ∉ sideWords (C ++ D) := by
      obtain ⟨l, r, -, -, hr⟩ := h'.written
      exact name_fresh hv hr
    have he : ∀ u ∈ nameWords (C ++ D), setCoord env (.str v) i (.str u) = env (.str u) := by
      intro u hu
      have : u ≠ v := fun e => hfr (e ▸ List.mem_of_mem_filter (List.mem_of_mem_filter hu))
      simp [setCoord, this]
    cases hu with
    | none => rfl
    | some hs =>
      unfold biasAt
      simp only
      unfold entry
      rw [hn, List.map_append, List.map_cons, if_neg hB, ← hs.at (by omega) (by simp), ← List.map_append, ← hn']
      congr 2
      apply List.map_congr_left
      intro u hu
      rw [he u hu]
  have c3 := Mixes.slices hN (fresh hLn) (fresh h'.nodup) hWA hx hys hbias c1 hi
  rw [e2, c2.unique (h i hi).nodup c3]

end

/-! ### Examples -/

section
attribute [local instance] asciiUnicode

def q222 : Tensor Int := ⟨[2, 2, 2], [1, 2, 3, 4, 0, 1, 1, 1], rfl⟩

theorem read_batch : IsEinsum "b i j, j k -> i b k".toList [[sy "b", sy "i", sy "j"], [sy "j", sy "k"]]
    [sy "i", sy "b", sy "k"] :=
  ⟨[[word "b", word "i", word "j"], [word "j", word "k"]], [word "i", word "b", word "k"],
    ⟨["b i j".toList, " j k ".toList], " i b k".toList, by decide, rfl, .cons (by decide) (.cons (by decide) .nil), by decide⟩,
    .cons (by decide) (.cons (by decide) .nil), by decide⟩

theorem fits_batch : EinsumFits two 0 [[sy "b", sy "i", sy "j"], [sy "j", sy "k"]] [sy "i", sy "b", sy "k"] [q222, mB] where
  some_input := by simp
  shapes := .cons (by decide) (.cons (by decide) .nil)
  nodup := by decide
  within := by decide
  ellipsis := by decide

-- one matrix times every matrix of a batch
example : ∃ (xs : Nat → Tensor Int) (y : Tensor Int) (ys : Nat → Tensor Int), SlicesAre q222 0 2 xs ∧
    einsum refEinsum [.tensor q222, .tensor mB, .str "b i j, j k -> i b k".toList] = .ok y ∧ SlicesAre y 1 2 ys ∧
    ∀ i < 2, einsum refEinsum [.tensor (xs i), .tensor mB, .str "i j, j k -> i k".toList] = .ok (ys i) := by
  obtain ⟨xs, hxs⟩ := exists_slices (x := q222) (pre := []) (n := 2) (post := [2, 2]) rfl
  obtain ⟨y, ys, h⟩ := C73_einsum (f := refEinsum) refEinsum_lawful (N := 2) (n := 0) (w := "b".toList) (len := two)
    (ins := [⟨[] ++ [sy "i", sy "j"], [] ++ sy "b" :: [sy "i", sy "j"], q222, xs⟩, ⟨[sy "j", sy "k"], [sy "j", sy "k"], mB, fun _ => mB⟩])
    (C := [sy "i"]) (D := [sy "k"]) (by exact read_ab) (by exact read_batch)
    (by show distinct ([[sy "b", sy "i", sy "j"], [sy "j", sy "k"]].flatMap symNames) ≤ 52; decide)
    (by
      intro b hb
      simp only [List.mem_cons, List.not_mem_nil, or_false] at hb
      rcases hb with rfl | rfl
      · exact .sliced (by decide) hxs
      · exact .shared (by decide))
    (by exact fits_batch)
  exact ⟨xs, y, ys, hxs, h⟩

example : einsum refEinsum [.tensor q222, .tensor mB, .str "b i j, j k -> i b k".toList] =
    .ok ⟨[2, 2, 2], [19, 22, 7, 8, 43, 50, 12, 14], rfl⟩ := by rfl

-- the axis must be in the output: summed over, the results for the slices are added
example : einsum refEinsum [.tensor q222, .tensor mB, .str "b i j, j k -> i k".toList] =
    .ok ⟨[2, 2], [26, 30, 55, 64], rfl⟩ := by rfl

theorem pack_ik : IsPackPattern "i * k".toList 1 1 :=
  (analyzePattern_iff.1 (show analyzePattern "i * k".toList = .ok (1, 1, 2) by rfl)).1
theorem pack_k : IsPackPattern "* k".toList 0 1 :=
  (analyzePattern_iff.1 (show analyzePattern "* k".toList = .ok (0, 1, 1) by rfl)).1
theorem pack_i : IsPackPattern "i *".toList 1 0 :=
  (analyzePattern_iff.1 (show analyzePattern "i *".toList = .ok (1, 0, 1) by rfl)).1

-- the tensors of the example of C23, slice by slice along the first axis, and along the last one
example : ∃ f g ys, SlicesAre p1 0 2 f ∧ SlicesAre p2 0 2 g ∧ SlicesAre packed 0 2 ys ∧
    ∀ i < 2, pack numpyPack [f i, g i] "* k".toList = .ok (ys i, [[], [3]]) := by
  obtain ⟨f, hf⟩ := exists_slices (x := p1) (pre := []) (n := 2) (post := [2]) rfl
  obtain ⟨g, hg⟩ := exists_slices (x := p2) (pre := []) (n := 2) (post := [3, 2]) rfl
  obtain ⟨ys, h1, h2⟩ := (C73_pack_before (q := 0) (b := 0) .numpy pack_k pack_ik (by decide) (.cons hf (.cons hg .nil))).1
    (show pack numpyPack [p1, p2] "i * k".toList = .ok (packed, [[], [3]]) by rfl)
  exact ⟨f, g, ys, hf, hg, h1, h2⟩

example : ∃ f g ys, SlicesAre p1 1 2 f ∧ SlicesAre p2 2 2 g ∧ SlicesAre packed 2 2 ys ∧
    ∀ i < 2, pack numpyPack [f i, g i] "i *".toList = .ok (ys i, [[], [3]]) := by
  obtain ⟨f, hf⟩ := exists_slices (x := p1) (pre := [2]) (n := 2) (post := []) rfl
  obtain ⟨g, hg⟩ := exists_slices (x := p2) (pre := [2, 3]) (n := 2) (post := []) rfl
  obtain ⟨ys, h1, h2⟩ := (C73_pack_after (q := 0) (a := 0) .numpy pack_i pack_ik (by decide) (.cons hf (.cons hg .nil))).1
    (show pack numpyPack [p1, p2] "i * k".toList = .ok (packed, [[], [3]]) by rfl)
  exact ⟨f, g, ys, hf, hg, h1, h2⟩

example : ∃ ys fs, SlicesAre packed 0 2 ys ∧ List.Forall₂ (fun z f => SlicesAre z 0 2 f) [p1, p2] fs ∧
    ∀ i < 2, unpack strictPack (ys i) [[], [-1]] "* k".toList = .ok (fs.map (· i)) := by
  obtain ⟨ys, hy⟩ := exists_slices (x := packed) (pre := []) (n := 2) (post := [4, 2]) rfl
  obtain ⟨fs, h1, h2⟩ := (C73_unpack_before (q := 0) (b := 0) .strict pack_k pack_ik (by decide) hy rfl (by decide)).1
    (show unpack strictPack packed [[], [-1]] "i * k".toList = .ok [p1, p2] by rfl)
  exact ⟨ys, fs, hy, h1, h2⟩

example : ∃ ys fs, SlicesAre packed 2 2 ys ∧ List.Forall₂ (fun z f => SlicesAre z (z.ndim - 1) 2 f) [p1, p2] fs ∧
    ∀ i < 2, unpack strictPack (ys i) [[], [-1]] "i *".toList = .ok (fs.map (· i)) := by
  obtain ⟨ys, hy⟩ := exists_slices (x := packed) (pre := [2, 4]) (n := 2) (post := []) rfl
  obtain ⟨fs, h1, h2⟩ := (C73_unpack_after (q := 0) (a := 0) .strict pack_i pack_ik (by decide) hy rfl (by decide)).1
    (show unpack strictPack packed [[], [-1]] "i * k".toList = .ok [p1, p2] by rfl)
  exact ⟨ys, fs, hy, h1, h2⟩

/-- lengths in the example of a layer -/
def layerLen : AxisMap := fun a => if a = .str "d".toList then 3 else 2

def oneMix : Py (EinMix Int) :=
  makeEinMix (fun _ => idOrder) "c -> d".toList "c d".toList (some "d".toList) [kwInt "c" 2, kwInt "d" 3]
def batchMix : Py (EinMix Int) :=
  makeEinMix (fun _ => idOrder) "c b -> b d".toList "c d".toList (some "d".toList) [kwInt "c" 2, kwInt "d" 3]

theorem layer_legal {p : String} {GL GR : List Elem} {L R : List (List Axis)} {m : EinMix Int} {shape : List Nat}
    (hp : IsPattern p.toList GL GR)
    (hm : makeEinMix (fun _ => idOrder) p.toList "c d".toList (some "d".toList) [kwInt "c" 2, kwInt "d" 3] = .ok m)
    (hg : Groups GL GR shape.length L R) (hs : shape = L.map (groupSize layerLen))
    (hn : ∀ side i v, Axis.anon side i v ∉ L.flatten ++ R.flatten) (hd : Determinate L ["c".toList, "d".toList] layerLen)
    (hr : dots ∉ sideWords GL) :
    LegalMix (fun _ => idOrder) p.toList "c d".toList (some "d".toList) [kwInt "c" 2, kwInt "d" 3] m shape GL GR
      [word "c", word "d"] [word "d"] L R layerLen := by
  refine ⟨by decide, ⟨by decide, by decide⟩, hp, isSide_of (by decide) (by decide) (by decide) (by decide), ?_, hm, hg,
    ⟨hs, ?_, fun _ _ _ h => absurd h (hn _ _ _)⟩, hd, .inl (fun h => absurd h hr)⟩
  · intro t ht
    cases ht
    exact isSide_of (by decide) (by decide) (by decide) (by decide)
  · intro n s h
    simp only [List.mem_cons, List.not_mem_nil, or_false, kwInt, Prod.mk.injEq] at h
    rcases h with ⟨rfl, rfl⟩ | ⟨rfl, rfl⟩ <;> decide

theorem layer_one : IsPattern "c -> d".toList [word "c"] [word "d"] :=
  ⟨"c ".toList, " d".toList, rfl, isSide_of (by decide) (by decide) (by decide) (by decide),
    isSide_of (by decide) (by decide) (by decide) (by decide)⟩
theorem layer_batch : IsPattern "c b -> b d".toList [word "c", word "b"] [word "b", word "d"] :=
  ⟨"c b ".toList, " b d".toList, rfl, isSide_of (by decide) (by decide) (by decide) (by decide),
    isSide_of (by decide) (by decide) (by decide) (by decide)⟩

-- a linear layer applied to the columns of a matrix
example : ∃ (m m' : EinMix Int) (xs ys : Nat → Tensor Int) (y : Tensor Int), oneMix = .ok m ∧ batchMix = .ok m' ∧
    SlicesAre mA 1 2 xs ∧ SlicesAre y 0 2 ys ∧
    m'.forward (Layer.forwardTorch intOps) refEinsum ⟨[2, 3], [1, 2, 3, 4, 5, 6], rfl⟩ (some ⟨[1, 3], [10, 20, 30], rfl⟩) mA = .ok y ∧
    ∀ i < 2, m.forward (Layer.forwardTorch intOps) refEinsum ⟨[2, 3], [1, 2, 3, 4, 5, 6], rfl⟩ (some ⟨[3], [10, 20, 30], rfl⟩)
      (xs i) = .ok (ys i) := by
  obtain ⟨m, h1, h2, h3⟩ : ∃ m : EinMix Int, oneMix = .ok m ∧ m.weightShape = [2, 3] ∧ m.biasShape = some [3] := ⟨_, rfl, rfl, rfl⟩
  obtain ⟨m', h1', h2', h3'⟩ : ∃ m : EinMix Int, batchMix = .ok m ∧ m.weightShape = [2, 3] ∧ m.biasShape = some [1, 3] :=
    ⟨_, rfl, rfl, rfl⟩
  obtain ⟨xs, hxs⟩ := exists_slices (x := mA) (pre := [2]) (n := 2) (post := []) rfl
  obtain ⟨y, ys, a1, a2, a3⟩ := C73_einmix (N := 2) (so := fun _ => idOrder) (so' := fun _ => idOrder) (m := m) (m' := m')
    (v := "b".toList) (A := [word "c"]) (B := []) (C := []) (D := [word "d"]) (L₁ := [[.str "c".toList]]) (L₂ := []) (R₁ := [])
    (R₂ := [[.str "d".toList]]) (len := layerLen) (x := mA) (xs := xs) (w := ⟨[2, 3], [1, 2, 3, 4, 5, 6], rfl⟩)
    (t := some ⟨[3], [10, 20, 30], rfl⟩) (t' := some ⟨[1, 3], [10, 20, 30], rfl⟩) (call := Layer.forwardTorch intOps)
    (f := refEinsum) (by decide)
    (fun i hi => layer_legal layer_one h1 (by
        rw [hxs.shape (pre := [2]) (post := []) rfl hi]
        exact ⟨0, fun _ => rfl, by decide, by decide, rfl⟩) (by rw [hxs.shape (pre := [2]) (post := []) rfl hi]; decide)
      (by simp) (by intro g hg hu; simp only [List.mem_cons, List.append_nil, List.not_mem_nil, or_false] at hg; subst hg; decide) (by decide))
    (layer_legal layer_batch h1' ⟨0, fun _ => rfl, by decide, by decide, rfl⟩ (by decide) (by simp)
      (by intro g hg hu; simp only [List.mem_cons, List.cons_append, List.nil_append, List.not_mem_nil, or_false] at hg
          rcases hg with rfl | rfl <;> decide) (by decide))
    (by decide) (by decide) (.inr ⟨_, rfl⟩) refEinsum_lawful ⟨by rw [h2], by rw [h2']⟩ (by rw [h3]; rfl) (by rw [h3']; rfl)
    (.some ⟨[], [3], rfl, rfl, fun i hi => ⟨rfl, fun u v hu => by
      obtain rfl : i = 0 := by omega
      obtain rfl := List.length_eq_zero_iff.1 hu
      simp [Tensor.at?, inBounds, ravel]⟩⟩) hxs
  exact ⟨m, m', xs, ys, y, h1, h1', hxs, a2, a1, a3⟩

example : callMix batchMix ⟨[2, 3], [1, 2, 3, 4, 5, 6], rfl⟩ (some ⟨[1, 3], [10, 20, 30], rfl⟩) mA =
    .ok ⟨[2, 3], [23, 37, 51, 28, 44, 60], rfl⟩ := by rfl

end

end Einops
