import Verif.Props.Classical
import Verif.Props.Algebra
import Verif.Proofs.Documented
import Verif.TransposeSpec

/-!
# For C86: bits of places, reducing a transposed tensor
-/

namespace Einops

universe u

/-- the C-order place in a tensor with dimensions 2 has the coordinates as bits, the last one first -/
theorem ravel_bits : ∀ (n : Nat) (i : List Nat), inBounds i (List.replicate n 2) = true → ∀ m, m < n →
    (ravel (List.replicate n 2) i).testBit m = decide (i.getD (n - 1 - m) 0 = 1)
  | 0, _, _, m, hm => absurd hm (by omega)
  | n + 1, [], h, _, _ => by simp [List.replicate_succ, inBounds] at h
  | n + 1, a :: i, h, m, hm => by
    simp only [List.replicate_succ, inBounds, Bool.and_eq_true, decide_eq_true_eq] at h
    have hr := ravel_lt h.2
    rw [List.prod_replicate] at hr
    rw [List.replicate_succ, ravel, List.prod_replicate, Nat.mul_comm, Nat.testBit_two_pow_mul_add _ hr]
    by_cases hmn : m < n
    · rw [if_pos hmn, ravel_bits n i h.2 m hmn]
      have : n + 1 - 1 - m = (n - 1 - m) + 1 := by omega
      rw [this, List.getD_cons_succ]
    · have : m = n := by omega
      subst this
      rw [if_neg hmn]
      have ha : a = 0 ∨ a = 1 := by omega
      rcases ha with rfl | rfl <;> simp

/-- equal coordinates from equal bits -/
theorem coords_of_bits {n : Nat} {i : List Nat} (h : inBounds i (List.replicate n 2) = true) {k : Nat} (hk : k < n) :
    i.getD k 0 = ((ravel (List.replicate n 2) i).testBit (n - 1 - k)).toNat := by
  rw [ravel_bits n i h _ (by omega)]
  have e : n - 1 - (n - 1 - k) = k := by omega
  rw [e]
  have hl := inBounds_length h
  rw [List.length_replicate] at hl
  have : i.getD k 0 < 2 := by
    clear e
    induction n generalizing i k with
    | zero => omega
    | succ n ih =>
      cases i with
      | nil => simp at hl
      | cons a i =>
        simp only [List.replicate_succ, inBounds, Bool.and_eq_true, decide_eq_true_eq] at h
        cases k with
        | zero => simpa using h.1
        | succ k => simpa using ih h.2 (k := k) (by omega) (by simpa using hl)
  have hh : i.getD k 0 = 0 ∨ i.getD k 0 = 1 := by omega
  rcases hh with e | e <;> rw [e] <;> rfl

/-- element at a place -/
theorem at?_place {α : Type u} (x : Tensor α) {i : List Nat} (h : inBounds i x.shape = true) :
    x.at? i = x.data[ravel x.shape i]? := by
  unfold Tensor.at?
  rw [if_pos h]

section
variable {α : Type u} {x t y : Tensor α} {len : AxisMap} {ns : List Str} {p : List Nat}

theorem names_read (hp : ∀ k ∈ p, k < ns.length) (f : AxisMap) :
    ((p.map fun k => ns.getD k []).map Axis.str).map f = p.map fun k => ((ns.map Axis.str).map f).getD k 0 := by
  rw [List.map_map, List.map_map]
  refine List.map_congr_left fun k hk => ?_
  have := hp k hk
  simp [this]

/-- a transposed tensor as a rearrangement of axes -/
theorem IsTranspose.moves (hp : p.Perm (List.range ns.length)) (hlen : (ns.map Axis.str).map len = x.shape)
    (h : IsTranspose p x t) :
    Moves len ((ns.map Axis.str).map fun a => [a]) (((p.map fun k => ns.getD k []).map Axis.str).map fun a => [a]) x t := by
  have hlt : ∀ k ∈ p, k < ns.length := fun k hk => List.mem_range.1 (hp.subset hk)
  refine ⟨by rw [h.1, singles_size, names_read hlt, hlen], fun env henv => ?_⟩
  rw [singles_flatten] at henv
  have hin : inBounds ((ns.map Axis.str).map env) x.shape = true := by
    rw [← hlen, inBounds_map]
    exact fun a ha => henv a (List.mem_append_left _ ha)
  obtain ⟨v, hv⟩ := x.at?_isSome hin
  refine ⟨v, by rw [singles_at]; exact hv, ?_⟩
  rw [singles_at, names_read hlt, h.2 _ (by rw [← hlen]; simp), hv]

/-- reducing the first dimensions -/
theorem reduces_first {op : List α → Py α} {D K : List Axis} (hn : (D ++ K).Nodup) :
    Reduces op len ((D ++ K).map fun a => [a]) (K.map fun a => [a]) t y ↔ y.shape = K.map len ∧
      ∀ j, inBounds j (K.map len) = true →
        ∃ vs v, (indices (D.map len)).map (fun c => t.at? (c ++ j)) = vs.map some ∧ op vs = .ok v ∧ y.at? j = some v := by
  have hn' := List.nodup_append.1 hn
  have hfil : (D ++ K).filter (fun a => a ∉ K) = D := by
    rw [List.filter_append, List.filter_eq_self.2, List.filter_eq_nil_iff.2, List.append_nil]
    · intro a ha
      simpa using ha
    · intro a ha
      simp only [decide_eq_true_eq]
      exact fun hk => hn'.2.2 a ha a hk rfl
  have hvals : ∀ env : AxisMap, (loops len D env).map (t.atAxes ((D ++ K).map fun a => [a]) len) =
      (indices (D.map len)).map fun c => t.at? (c ++ K.map env) := by
    intro env
    rw [← loops_indices hn'.1 env, List.map_map]
    refine List.map_congr_left fun e he => ?_
    rw [singles_at, List.map_append, Function.comp_apply]
    congr 2
    exact List.map_congr_left fun a ha => (mem_loops he).1 a (fun hd => hn'.2.2 a hd a ha rfl)
  unfold Reduces
  rw [singles_size, singles_flatten, singles_flatten, hfil]
  refine and_congr_right fun hs => ⟨fun h j hj => ?_, fun h env henv => ?_⟩
  · have he := map_envOf hn'.2.1 (i := j) (by rw [inBounds_length hj, List.length_map])
    generalize envOf K j = env at he
    obtain ⟨vs, v, h1, h2, h3⟩ := h env (by rw [← inBounds_map, he]; exact hj)
    rw [hvals, he] at h1
    rw [singles_at, he] at h3
    exact ⟨vs, v, h1, h2, h3⟩
  · obtain ⟨vs, v, h1, h2, h3⟩ := h (K.map env) (by rw [inBounds_map]; exact henv)
    exact ⟨vs, v, by rw [hvals]; exact h1, h2, by rw [singles_at]; exact h3⟩

end

/-! ### Sides of names and an ellipsis, without parentheses -/

/-- the axes of a word -/
def wordOf (n : Nat) (w : Str) : List Axis := if w = dots then ellAxes n else [.str w]

theorem map_flatMap_each {β γ δ : Type*} {f : β → List γ} {g : β → List δ} {h : γ → δ} {l : List β}
    (hl : ∀ a ∈ l, (f a).length = (g a).length) (he : (l.flatMap f).map h = l.flatMap g) : ∀ a ∈ l, (f a).map h = g a := by
  induction l with
  | nil => intro a ha; cases ha
  | cons a l ih =>
    rw [List.flatMap_cons, List.flatMap_cons, List.map_append] at he
    obtain ⟨h1, h2⟩ := List.append_inj he (by rw [List.length_map]; exact hl a List.mem_cons_self)
    intro a' ha'
    rcases List.mem_cons.1 ha' with rfl | ha'
    · exact h1
    · exact ih (fun a ha => hl a (List.mem_cons_of_mem _ ha)) h2 a' ha'

section
variable [PyUnicode] {α : Type u} {x : Tensor α} {ws ws' : List Str} {q : Str}

theorem spread_bares (side k n : Nat) {ws : List Str} (hw : ∀ w ∈ ws, w = dots ∨ IsName false w) :
    spread (ellAxes n) (denote side k (ws.map Elem.bare)) = (ws.flatMap (wordOf n)).map fun a => [a] := by
  induction ws generalizing k with
  | nil => rfl
  | cons w ws ih =>
    have ih := ih (k + 1) (fun w h => hw w (List.mem_cons_of_mem _ h))
    rw [List.map_cons, denote, List.flatMap_cons, List.map_append, ← ih]
    by_cases h : w = dots
    · rw [if_pos h, spread, wordOf, if_pos h]
    · have hn := (hw w List.mem_cons_self).resolve_left h
      have h1 := spread_nameGroups side k (ellAxes n) (G := [.bare w]) (by simpa [sideWords, Elem.words] using hn)
      rw [if_neg h, wordOf, if_neg h]
      rw [denote, if_neg h, denote, spread, spread] at h1
      rw [spread]
      have h2 : (List.flatMap (fun a => if a = Axis.str ellipsisStr then ellAxes n else [a]) (wordAxes side k w)) = [.str w] := by
        simpa [nameGroups, Elem.words] using h1
      rw [h2]
      rfl

theorem readWords_length (c : Str → Nat) (e : List Nat) : (readWords ws c e).length = (ws.flatMap (wordOf e.length)).length := by
  unfold readWords
  induction ws with
  | nil => rfl
  | cons w ws ih =>
    rw [List.flatMap_cons, List.flatMap_cons, List.length_append, List.length_append, ih]
    congr 1
    by_cases h : w = dots
    · simp [h, wordOf, ellAxes]
    · simp [h, wordOf]

/-- an assignment of numbers to axes that reads as given on both sides -/
theorem readWords_env (hnd : (ws.flatMap (wordOf n)).Nodup) (hp : ws'.Perm ws) (c : Str → Nat) {e : List Nat} (he : e.length = n) :
    ∃ env : AxisMap, (ws.flatMap (wordOf n)).map env = readWords ws c e ∧ (ws'.flatMap (wordOf n)).map env = readWords ws' c e := by
  subst he
  have h := map_envOf hnd (i := readWords ws c e) (readWords_length c e)
  generalize envOf (ws.flatMap (wordOf e.length)) (readWords ws c e) = env at h
  refine ⟨env, h, ?_⟩
  have h1 := map_flatMap_each (f := wordOf e.length) (g := fun w => if w = dots then e else [c w]) (h := env) (l := ws)
    (fun w _ => by by_cases hw : w = dots <;> simp [hw, wordOf, ellAxes]) h
  rw [List.map_flatMap]
  unfold readWords
  rw [List.flatMap_congr]
  exact fun w hw => h1 w (hp.subset hw)

theorem dots_moves {E : ElemOps α} {b : Backend α} (hb : Modelled E b) (hw : ∀ w ∈ ws, w = dots ∨ IsName false w) (hd : dots ∈ ws)
    (hp : ws'.Perm ws) (hq : IsPattern q (ws.map Elem.bare) (ws'.map Elem.bare)) {d : Str → Nat} {s : List Nat}
    (hx : x.shape = readWords ws d s) :
    ∃ y, (∀ so, rearrange b so (.one x) q [] = .ok y) ∧ y.shape = readWords ws' d s ∧
      ∀ c e, e.length = s.length → y.at? (readWords ws' c e) = x.at? (readWords ws c e) := by
  have hw' : ∀ w ∈ ws', w = dots ∨ IsName false w := fun w h => hw w (hp.subset h)
  have wL := words_bares ws
  have wR := words_bares ws'
  have hnd : (ws.flatMap (wordOf s.length)).Nodup := by
    obtain ⟨l, r, _, hL, _⟩ := hq
    have := side_flatten_nodup hL 0 s.length
    rwa [spread_bares _ _ _ hw, singles_flatten] at this
  obtain ⟨len, l1, l2⟩ := readWords_env hnd hp d (e := s) rfl
  have hacc : Accepted (.name "rearrange".toList) q [] x.shape (ws.map Elem.bare) (ws'.map Elem.bare)
      ((ws.flatMap (wordOf s.length)).map fun a => [a]) ((ws'.flatMap (wordOf s.length)).map fun a => [a]) len := by
    refine ⟨hq, ⟨?_, fun n hn => by simp at hn, ⟨s.length, fun h => absurd (by rwa [wL]) h, ?_, ?_, ?_⟩, oneUnknown_singles _ _⟩,
      ⟨?_, by simp, ?_⟩, determinate_singles _ _ _⟩
    · rw [SidesOK, if_pos rfl]
      refine ⟨⟨fun _ => by rwa [wL], fun ws1 h => ?_⟩, units_of_names (by rw [wL]; exact hw), units_of_names (by rw [wR]; exact hw'),
        fun w h _ => ?_, fun w h _ => ?_⟩
      · obtain ⟨w, -, hw⟩ := List.mem_map.1 h
        cases hw
      · rw [wL] at h; rw [wR]; exact hp.symm.subset h
      · rw [wR] at h; rw [wL]; exact hp.subset h
    · rw [spread_bares _ _ _ hw]
    · rw [spread_bares _ _ _ hw']
    · rw [hx, ← l1]; simp
    · rw [singles_size, l1, hx]
    · intro sd i v h
      rw [singles_flatten, singles_flatten, List.mem_append, List.mem_flatMap, List.mem_flatMap] at h
      rcases h with ⟨w, -, h⟩ | ⟨w, -, h⟩ <;> (unfold wordOf at h; split at h <;> simp [ellAxes] at h)
  have hsub : ∀ a, a ∈ ws.flatMap (wordOf s.length) ↔ a ∈ ws'.flatMap (wordOf s.length) := fun a => by
    simp only [List.mem_flatMap]
    exact ⟨fun ⟨w, h1, h2⟩ => ⟨w, hp.symm.subset h1, h2⟩, fun ⟨w, h1, h2⟩ => ⟨w, hp.subset h1, h2⟩⟩
  obtain ⟨y, h1, h2, h3⟩ := hacc.moves (red := .name "rearrange".toList) hb.lawful intKw_nil (hacc.move_sub (.inl rfl))
  have hys : y.shape = readWords ws' d s := by rw [h2, singles_size, l2]
  refine ⟨y, h1, hys, fun c e he => ?_⟩
  obtain ⟨env, e1, e2⟩ := readWords_env hnd hp c he
  by_cases hin : inBounds (readWords ws c e) x.shape = true
  · have hr : InRange len (ws.flatMap (wordOf s.length)) env := by
      rw [← inBounds_map, e1, l1, ← hx]; exact hin
    obtain ⟨v, h4, h5⟩ := h3 env (by
      rw [singles_flatten, singles_flatten]
      intro a ha
      exact (List.mem_append.1 ha).elim (hr a) fun h => hr a ((hsub a).2 h))
    rw [singles_at, e1] at h4
    rw [singles_at, e2] at h5
    rw [h4, h5]
  · have hout : ¬ inBounds (readWords ws' c e) y.shape = true := by
      intro hc
      apply hin
      rw [hys, ← l2, ← e2, inBounds_map] at hc
      rw [hx, ← e1, ← l1, inBounds_map]
      exact fun a ha => hc a ((hsub a).1 ha)
    unfold Tensor.at?
    rw [if_neg hin, if_neg hout]

end

end Einops
