import Verif.Proofs.Contract

/-!
# A framework `einsum`

A reference implementation of what frameworks call `einsum`, without broadcasting; it satisfies `EinsumLawful`.
-/

namespace Einops

universe u

/-- read the letters and ellipses of one tensor -/
def readTerm : Str → Option (List ESym)
  | [] => some []
  | '.' :: '.' :: '.' :: s => (readTerm s).map (.ell :: ·)
  | c :: s => if c.isAlpha then (readTerm s).map (.name [c] :: ·) else none

/-- read the letters and ellipses of several tensors -/
def readTerms : List Str → Option (List (List ESym))
  | [] => some []
  | s :: ss =>
    match readTerm s, readTerms ss with
    | some t, some ts => some (t :: ts)
    | _, _ => none

variable {α : Type u} [CommSemiring α]

/-- number of dimensions the ellipsis stands for, from the first tensor that has one -/
def ellRank : List (List ESym) → List (Tensor α) → Nat
  | t :: ts, x :: xs => if .ell ∈ t then x.ndim - (symNames t).length else ellRank ts xs
  | _, _ => 0

/-- length of an axis, from the first tensor that has it -/
def axisLen : List (List Axis) → List (Tensor α) → AxisMap
  | A :: As, x :: xs, a => if a ∈ A then nth x.shape (A.idxOf a) else axisLen As xs a
  | _, _, _ => 0

/-- `einsum(subscripts, *operands)` -/
def refEinsum (s : Str) (xs : List (Tensor α)) : Py (Tensor α) :=
  match splitArrow s with
  | .error _ => .error .backend
  | .ok (l, r) =>
    match readTerms (splitOn [','] l), readTerm r with
    | some terms, some out =>
      let n := ellRank terms xs
      let As := terms.map (symAxes n)
      let B := symAxes n out
      let len := axisLen As xs
      if terms.length = xs.length ∧ (∀ p ∈ As.zip xs, p.2.shape = p.1.map len) ∧ B.Nodup ∧ (∀ b ∈ B, b ∈ As.flatten) then
        let S := (As.flatten.dedup).filter (fun a => a ∉ B)
        Tensor.build (B.map len) (fun i => .ok (((loops len S (envOf B i)).map (termProd As xs)).sum))
      else .error .backend
    | _, _ => .error .backend

theorem loops_base {γ : Type*} {len : AxisMap} {D U : List Axis} {F : AxisMap → γ}
    (hF : ∀ e e' : AxisMap, (∀ a ∈ U, e a = e' a) → F e = F e') {env env' : AxisMap}
    (h : ∀ a ∈ U, a ∉ D → env a = env' a) : (loops len D env).map F = (loops len D env').map F := by
  induction D generalizing env env' with
  | nil => simp only [loops, List.map_cons, List.map_nil]; rw [hF env env' (fun a ha => h a ha (by simp))]
  | cons d D ih =>
    simp only [loops, List.map_flatMap]
    congr 1
    funext i
    apply ih
    intro a ha hD
    unfold setCoord
    by_cases e : a = d
    · rw [if_pos e, if_pos e]
    · rw [if_neg e, if_neg e, h a ha (by simp [e, hD])]

theorem termProd_base {As : List (List Axis)} {xs : List (Tensor α)} (e e' : AxisMap) (h : ∀ a ∈ As.flatten, e a = e' a) :
    termProd As xs e = termProd As xs e' := by
  have := termProd_congr (xs := xs) (φ := id) (As := As) (e := e) (e' := e') (fun A hA a ha => h a (List.mem_flatten.2 ⟨A, hA, ha⟩))
  simpa using this

theorem readTerm_write {t : List ESym} (h : ∀ w ∈ symNames t, ∃ c, c.isAlpha = true ∧ w = [c]) :
    readTerm (writeSyms (fun w => w.headD 'a') t) = some t := by
  induction t with
  | nil => rfl
  | cons a t ih =>
    cases a with
    | ell =>
      simp only [symNames] at h
      simp only [writeSyms, readTerm, ih h, Option.map_some]
    | name w =>
      simp only [symNames, List.mem_cons, forall_eq_or_imp] at h
      obtain ⟨⟨c, hc, rfl⟩, h2⟩ := h
      have hd : c ≠ '.' := by rintro rfl; exact absurd hc (by decide)
      simp only [writeSyms, List.headD_cons]
      rw [readTerm]
      · rw [if_pos hc, ih h2]; rfl
      · rintro s rfl; exact absurd rfl hd

theorem readTerms_write {ts : List (List ESym)} (h : ∀ t ∈ ts, ∀ w ∈ symNames t, ∃ c, c.isAlpha = true ∧ w = [c]) :
    readTerms (ts.map (writeSyms (fun w => w.headD 'a'))) = some ts := by
  induction ts with
  | nil => rfl
  | cons t ts ih =>
    simp only [List.map_cons, readTerms, readTerm_write (h t (by simp)), ih (fun t ht => h t (by simp [ht]))]

theorem symAxes_length (n : Nat) (t : List ESym) : (symAxes n t).length = (symNames t).length + n * t.count .ell := by
  induction t with
  | nil => simp [symAxes, symNames]
  | cons a t ih =>
    cases a with
    | ell => simp [symAxes, symNames, ih, ellAxes, Nat.mul_add]; omega
    | name w => simp [symAxes, symNames, ih]; omega

theorem symAxes_noell {n m : Nat} {t : List ESym} (h : ESym.ell ∉ t) : symAxes n t = symAxes m t := by
  induction t with
  | nil => rfl
  | cons a t ih =>
    simp only [List.mem_cons, not_or] at h
    cases a with
    | ell => exact absurd rfl h.1
    | name w => simp only [symAxes, ih h.2]

omit [CommSemiring α] in
theorem axisLen_eq {As : List (List Axis)} {xs : List (Tensor α)} {len : AxisMap}
    (h : List.Forall₂ (fun A x => x.shape = A.map len) As xs) {a : Axis} (ha : a ∈ As.flatten) : axisLen As xs a = len a := by
  induction h with
  | nil => simp at ha
  | @cons A x As xs h1 h2 ih =>
    simp only [axisLen]
    split
    · rename_i hA
      rw [h1]
      have hlt : A.idxOf a < A.length := List.idxOf_lt_length_iff.2 hA
      simp [nth, List.getD, List.getElem?_map, List.getElem?_eq_getElem hlt]
    · rename_i hA
      simp only [List.flatten_cons, List.mem_append] at ha
      exact ih (ha.resolve_left hA)

theorem writeSyms_no {t : List ESym} (h : ∀ w ∈ symNames t, ∃ c, c.isAlpha = true ∧ w = [c]) {c : Char} (hc : c.isAlpha = false)
    (hd : c ≠ '.') : c ∉ writeSyms (fun w => w.headD 'a') t := by
  induction t with
  | nil => simp [writeSyms]
  | cons a t ih =>
    cases a with
    | ell =>
      simp only [symNames] at h
      simp only [writeSyms, List.mem_cons, not_or]
      exact ⟨hd, hd, hd, ih h⟩
    | name w =>
      simp only [symNames, List.mem_cons, forall_eq_or_imp] at h
      obtain ⟨⟨c', hc', rfl⟩, h2⟩ := h
      simp only [writeSyms, List.headD_cons, List.mem_cons, not_or]
      exact ⟨fun e => absurd hc (by rw [e, hc']; simp), ih h2⟩

theorem refEinsum_lawful : EinsumLawful (refEinsum (α := α)) := by
  intro terms out len n xs hlet hcount hfit
  have hne : terms.map (writeSyms (fun w => w.headD 'a')) ≠ [] := by
    intro h
    rw [List.map_eq_nil_iff] at h
    subst h
    have := hfit.shapes
    cases this
    exact hfit.some_input rfl
  have hno : ∀ p ∈ terms.map (writeSyms (fun w => w.headD 'a')), ∀ c, c.isAlpha = false → c ≠ '.' → c ∉ p := by
    intro p hp c h1 h2
    obtain ⟨t, ht, rfl⟩ := List.mem_map.1 hp
    exact writeSyms_no (hlet t (by simp [ht])) h1 h2
  have harrow : ¬ arrow <:+: List.intercalate [','] (terms.map (writeSyms (fun w => w.headD 'a'))) := by
    intro hi
    rcases mem_intercalate (hi.subset (show '-' ∈ arrow by simp [arrow])) with h | ⟨p, hp, h⟩
    · cases h
    · exact hno p hp '-' (by decide) (by decide) h
  have harrow' : ¬ arrow <:+: writeSyms (fun w => w.headD 'a') out := by
    intro hi
    exact writeSyms_no (hlet out (by simp)) (c := '-') (by decide) (by decide) (hi.subset (show '-' ∈ arrow by simp [arrow]))
  have hsplit := splitArrow_iff.2 ⟨rfl, harrow, harrow'⟩
  have hcomma := splitOn_comma_join hne (fun p hp => hno p hp ',' (by decide) (by decide))
  have hrank : (∃ t ∈ terms, ESym.ell ∈ t) → ellRank terms xs = n := by
    intro hex
    have hs := hfit.shapes
    have hc : ∀ t ∈ terms, t.count .ell ≤ 1 := fun t ht => hcount t (by simp [ht])
    clear hsplit hcomma harrow harrow' hno hne hfit hcount hlet
    induction hs with
    | nil => simp at hex
    | @cons t x ts xs h1 h2 ih =>
      simp only [ellRank]
      by_cases he : ESym.ell ∈ t
      · rw [if_pos he, Tensor.ndim, h1, List.length_map, symAxes_length]
        have h3 := hc t (by simp)
        have h4 : 0 < t.count .ell := List.count_pos_iff.2 he
        rw [show t.count ESym.ell = 1 by omega]
        omega
      · rw [if_neg he]
        refine ih ?_ (fun t ht => hc t (by simp [ht]))
        obtain ⟨t', ht', he'⟩ := hex
        rcases List.mem_cons.1 ht' with rfl | ht'
        · exact absurd he' he
        · exact ⟨t', ht', he'⟩
  have hsame : ∀ t ∈ out :: terms, symAxes (ellRank terms xs) t = symAxes n t := by
    intro t ht
    by_cases hex : ∃ t ∈ terms, ESym.ell ∈ t
    · rw [hrank hex]
    · apply symAxes_noell
      rcases List.mem_cons.1 ht with rfl | ht
      · exact fun h => hex (hfit.ellipsis.1 h)
      · exact fun h => hex ⟨t, ht, h⟩
  have hAs : terms.map (symAxes (ellRank terms xs)) = terms.map (symAxes n) :=
    List.map_congr_left (fun t ht => hsame t (by simp [ht]))
  have hshapes : List.Forall₂ (fun A x => x.shape = A.map len) (terms.map (symAxes n)) xs := by
    rw [List.forall₂_map_left_iff]; exact hfit.shapes
  have hlen : ∀ a ∈ (terms.map (symAxes n)).flatten, axisLen (terms.map (symAxes n)) xs a = len a :=
    fun a ha => axisLen_eq hshapes ha
  have hB : ∀ b ∈ symAxes n out, b ∈ (terms.map (symAxes n)).flatten := by
    intro b hb
    rcases mem_symAxes.1 hb with ⟨h1, h2⟩ | ⟨w, hw, rfl⟩
    · obtain ⟨t, ht, h3⟩ := hfit.ellipsis.1 h1
      exact List.mem_flatten.2 ⟨_, List.mem_map_of_mem ht, mem_symAxes.2 (.inl ⟨h3, h2⟩)⟩
    · obtain ⟨t, ht, h3⟩ := hfit.within w hw
      exact List.mem_flatten.2 ⟨_, List.mem_map_of_mem ht, mem_symAxes.2 (.inr ⟨w, h3, rfl⟩)⟩
  have hsh : ∀ p ∈ (terms.map (symAxes n)).zip xs, p.2.shape = p.1.map (axisLen (terms.map (symAxes n)) xs) := by
    intro p hp
    have h1 : p.2.shape = p.1.map len := (List.forall₂_iff_zip.1 hshapes).2 hp
    rw [h1]
    apply List.map_congr_left
    intro a ha
    exact (hlen a (List.mem_flatten.2 ⟨p.1, (List.of_mem_zip hp).1, ha⟩)).symm
  unfold refEinsum
  rw [show writeEinsum (fun w => w.headD 'a') terms out = List.intercalate [','] (terms.map (writeSyms (fun w => w.headD 'a'))) ++
    arrow ++ writeSyms (fun w => w.headD 'a') out from rfl]
  have hr := readTerms_write (ts := terms) (fun t ht => hlet t (by simp [ht]))
  simp only [hsplit, hcomma, hr, readTerm_write (hlet out (by simp))]
  simp only [hAs, hsame out (by simp)]
  rw [if_pos ⟨hfit.shapes.length_eq, hsh, hfit.nodup, hB⟩]
  set As := terms.map (symAxes n)
  set B := symAxes n out
  set len' := axisLen As xs
  obtain ⟨y, hy, hys, hyv⟩ := Tensor.build_total (α := α) (shape := B.map len')
    (f := fun i => .ok (((loops len' ((As.flatten.dedup).filter (fun a => a ∉ B)) (envOf B i)).map (termProd As xs)).sum))
    (fun i _ => ⟨_, rfl⟩)
  refine ⟨y, hy, ?_⟩
  refine Contracts.of_rename (φ := id) (len' := len') hB (fun _ _ _ _ h => h) (fun a ha => (hlen a ha).symm) ?_
  simp only [List.map_id_fun, List.map_id]
  refine ⟨hys, ?_⟩
  intro S hS hmem env henv
  have h1 := hyv (B.map env) (inBounds_map.2 henv)
  have hv : y.at? (B.map env) = some (((loops len' ((As.flatten.dedup).filter (fun a => a ∉ B)) (envOf B (B.map env))).map
      (termProd As xs)).sum) := by
    rcases h : y.at? (B.map env) with _ | v
    · rw [h] at h1; cases h1
    · rw [h] at h1
      simp only [Option.elim_some, Except.ok.injEq] at h1
      rw [h1]
  rw [hv]
  congr 1
  have hperm : ((As.flatten.dedup).filter (fun a => a ∉ B)).Perm S := by
    rw [List.perm_ext_iff_of_nodup ((List.nodup_dedup _).filter _) hS]
    intro a
    rw [hmem, List.mem_filter, List.mem_dedup, List.mem_flatten]
    simp
  have hp2 := loops_perm len' hperm ((List.nodup_dedup _).filter _) (envOf B (B.map env))
  rw [List.Perm.sum_eq (hp2.map _)]
  congr 1
  refine loops_base (U := As.flatten) (fun e e' h => termProd_base e e' h) ?_
  intro a ha haS
  have haB : a ∈ B := by
    by_contra hb
    exact haS ((hmem a).2 ⟨by obtain ⟨A, h1, h2⟩ := List.mem_flatten.1 ha; exact ⟨A, h1, h2⟩, hb⟩)
  have hme := map_envOf (A := B) hfit.nodup (i := B.map env) (by simp)
  exact List.map_inj_left.1 hme a haB

end Einops
