import Verif.Proofs.Einsum

/-!
# Contractions and names
-/

namespace Einops

universe u

/-! ### renaming axes of a contraction -/

section
variable {α : Type u} [CommSemiring α]

theorem termProd_congr {As : List (List Axis)} {xs : List (Tensor α)} {e e' : AxisMap} {φ : Axis → Axis}
    (h : ∀ A ∈ As, ∀ a ∈ A, e a = e' (φ a)) : termProd As xs e = termProd (As.map (List.map φ)) xs e' := by
  unfold termProd
  induction As generalizing xs with
  | nil => rfl
  | cons A As ih =>
    cases xs with
    | nil => rfl
    | cons x xs =>
      simp only [List.map_cons, List.zipWith_cons_cons, List.prod_cons, List.map_map]
      rw [ih (fun B hB => h B (by simp [hB]))]
      congr 2
      exact List.map_congr_left (fun a ha => h A (by simp) a ha)

/-- If the renamed contraction is computed, so is the original one. -/
theorem Contracts.of_rename {As : List (List Axis)} {B : List Axis} {xs : List (Tensor α)} {y : Tensor α} {φ : Axis → Axis}
    {len len' : AxisMap} (hB : ∀ b ∈ B, b ∈ As.flatten) (hinj : ∀ a ∈ As.flatten, ∀ c ∈ As.flatten, φ a = φ c → a = c)
    (hlen : ∀ a ∈ As.flatten, len a = len' (φ a)) (h : Contracts len' (As.map (List.map φ)) (B.map φ) xs y) :
    Contracts len As B xs y := by
  classical
  refine ⟨?_, ?_⟩
  · rw [h.1, List.map_map]
    exact List.map_congr_left (fun b hb => (hlen b (hB b hb)).symm)
  · intro S hS hmem env henv
    have hSin : ∀ a ∈ S, a ∈ As.flatten := fun a ha => by
      obtain ⟨⟨A, hA, ha'⟩, -⟩ := (hmem a).1 ha
      exact List.mem_flatten.2 ⟨A, hA, ha'⟩
    let env' : AxisMap := fun b => if hb : ∃ a, a ∈ As.flatten ∧ φ a = b then env hb.choose else 0
    have henv' : ∀ a ∈ As.flatten, env a = env' (φ a) := by
      intro a ha
      have hb : ∃ c, c ∈ As.flatten ∧ φ c = φ a := ⟨a, ha, rfl⟩
      simp only [env', dif_pos hb]
      rw [hinj hb.choose hb.choose_spec.1 a ha hb.choose_spec.2]
    have h1 := h.2 (S.map φ) (List.Nodup.map_on (fun a ha c hc e => hinj a (hSin a ha) c (hSin c hc) e) hS) (by
      intro b
      simp only [List.mem_map]
      constructor
      · rintro ⟨a, ha, rfl⟩
        obtain ⟨⟨A, hA, haA⟩, hnB⟩ := (hmem a).1 ha
        refine ⟨⟨_, ⟨A, hA, rfl⟩, List.mem_map_of_mem haA⟩, ?_⟩
        rintro ⟨b, hb, e⟩
        have := hinj b (hB b hb) a (hSin a ha) e
        exact hnB (this ▸ hb)
      · rintro ⟨⟨_, ⟨A, hA, rfl⟩, hbA⟩, hnB⟩
        obtain ⟨a, haA, rfl⟩ := List.mem_map.1 hbA
        exact ⟨a, (hmem a).2 ⟨⟨A, hA, haA⟩, fun hb => hnB ⟨a, hb, rfl⟩⟩, rfl⟩) env' (by
      intro b hb
      obtain ⟨a, ha, rfl⟩ := List.mem_map.1 hb
      rw [← henv' a (hB a ha), ← hlen a (hB a ha)]
      exact henv a ha)
    rw [List.map_map] at h1
    rw [show B.map env = B.map (env' ∘ φ) from List.map_congr_left (fun b hb => henv' b (hB b hb)), h1]
    congr 2
    symm
    refine loops_relabel (A := As.flatten) hinj (F := termProd As xs) (G := termProd (As.map (List.map φ)) xs) ?_ hSin
      (fun a ha => hlen a (hSin a ha)) henv'
    intro e e' he
    exact termProd_congr (fun A hA a ha => he a (List.mem_flatten.2 ⟨A, hA, ha⟩))

/-- lengths for the renamed axes -/
theorem exists_len {U : List Axis} {φ : Axis → Axis} (hinj : ∀ a ∈ U, ∀ c ∈ U, φ a = φ c → a = c) (len : AxisMap) :
    ∃ len' : AxisMap, ∀ a ∈ U, len a = len' (φ a) := by
  classical
  refine ⟨fun b => if hb : ∃ a, a ∈ U ∧ φ a = b then len hb.choose else 0, ?_⟩
  intro a ha
  have hb : ∃ c, c ∈ U ∧ φ c = φ a := ⟨a, ha, rfl⟩
  simp only [dif_pos hb]
  rw [hinj hb.choose hb.choose_spec.1 a ha hb.choose_spec.2]

end

/-! ### from names to letters -/

theorem symNames_rename (g : Str → Str) (t : List ESym) : symNames (t.map (renameSym g)) = (symNames t).map g := by
  induction t with
  | nil => rfl
  | cons a t ih => cases a <;> simp [symNames, renameSym, ih]

theorem ell_mem_rename (g : Str → Str) (t : List ESym) : ESym.ell ∈ t.map (renameSym g) ↔ ESym.ell ∈ t := by
  induction t with
  | nil => simp
  | cons a t ih =>
    simp only [List.map_cons, List.mem_cons, ih]
    cases a <;> simp [renameSym]

theorem count_rename (g : Str → Str) (t : List ESym) : (t.map (renameSym g)).count .ell = t.count .ell := by
  induction t with
  | nil => simp
  | cons a t ih => cases a <;> simp [renameSym, ih]

/-- the renaming of axes that goes with a renaming of names; axes of the ellipsis stay -/
def renameAxis (K : List Str) (g : Str → Str) : Axis → Axis
  | .str w => if w ∈ K then .str (g w) else .str w
  | a => a

theorem symAxes_rename {K : List Str} {g : Str → Str} {n : Nat} (hK : ∀ a ∈ ellAxes n, ∀ w, a = .str w → w ∉ K) {t : List ESym}
    (ht : ∀ w ∈ symNames t, w ∈ K) : symAxes n (t.map (renameSym g)) = (symAxes n t).map (renameAxis K g) := by
  have hell : (ellAxes n).map (renameAxis K g) = ellAxes n := by
    conv_rhs => rw [← List.map_id (ellAxes n)]
    apply List.map_congr_left
    intro a ha
    cases a with
    | str w => simp [renameAxis, hK _ ha w rfl]
    | anon => rfl
  induction t with
  | nil => rfl
  | cons a t ih =>
    cases a with
    | ell =>
      simp only [symNames] at ht
      simp only [List.map_cons, renameSym, symAxes, List.map_append, hell, ih ht]
    | name w =>
      simp only [symNames, List.mem_cons, forall_eq_or_imp] at ht
      simp only [List.map_cons, renameSym, symAxes, ih ht.2, renameAxis, if_pos ht.1]

theorem mem_symAxes {n : Nat} {t : List ESym} {a : Axis} :
    a ∈ symAxes n t ↔ (ESym.ell ∈ t ∧ a ∈ ellAxes n) ∨ ∃ w ∈ symNames t, a = .str w := by
  induction t with
  | nil => simp [symAxes, symNames]
  | cons b t ih =>
    cases b with
    | ell => simp only [symAxes, List.mem_append, ih, symNames, List.mem_cons, true_or, true_and]; tauto
    | name w =>
      simp only [symAxes, List.mem_cons, ih, symNames, reduceCtorEq, false_or, exists_eq_or_imp]
      tauto

theorem ellAxes_long {n : Nat} {a : Axis} (h : a ∈ ellAxes n) : ∃ c l, a = .str ('…' :: c :: l) := by
  unfold ellAxes at h
  obtain ⟨i, -, rfl⟩ := List.mem_map.1 h
  have : natStr i ≠ [] := by
    unfold natStr
    exact Nat.toDigits_ne_nil
  rcases hn : natStr i with _ | ⟨c, l⟩
  · exact absurd hn this
  · exact ⟨c, l, rfl⟩

section
variable [PyUnicode]

theorem readElem_name {e : Elem} {w : Str} (hw : readElem e = some (.name w)) : w = ellipsisStr ∨ w ∈ e.words := by
  have key : ∀ v d, v ∈ e.words → (d = .ell ∨ d = .name ellipsisStr) → readWord v d = some (.name w) →
      w = ellipsisStr ∨ w ∈ e.words := by
    intro v d hv hd hr
    unfold readWord at hr
    split at hr
    · rcases hd with rfl | rfl
      · cases hr
      · cases hr; exact .inl rfl
    · split at hr
      · cases hr
      · cases hr; exact .inr hv
  cases e with
  | bare v => exact key v _ (by simp [Elem.words]) (.inl rfl) hw
  | paren ws =>
    simp only [readElem] at hw
    split at hw
    · rename_i v hv
      refine key v _ ?_ (.inr rfl) hw
      have : v ∈ ws.filter (fun w => decide (¬ (IsNumber w ∧ decimalValue w = 1))) := by rw [hv]; simp
      exact (List.mem_filter.1 this).1
    · cases hw

theorem elemNames_word {G : List Elem} {w : Str} (h : w ∈ elemNames G) : w = ellipsisStr ∨ w ∈ G.flatMap Elem.words := by
  induction G with
  | nil => simp [elemNames, symNames] at h
  | cons e G ih =>
    unfold elemNames at h
    have hrest : w ∈ elemNames G → w = ellipsisStr ∨ w ∈ (e :: G).flatMap Elem.words := fun h' => by
      rcases ih h' with h' | h'
      · exact .inl h'
      · exact .inr (by rw [List.flatMap_cons]; exact List.mem_append_right _ h')
    cases he : readElem e with
    | none => rw [List.filterMap_cons_none he] at h; exact hrest h
    | some a =>
      rw [List.filterMap_cons_some he] at h
      cases a with
      | ell => exact hrest h
      | name v =>
        simp only [symNames, List.mem_cons] at h
        rcases h with rfl | h
        · rcases readElem_name he with h' | h'
          · exact .inl h'
          · exact .inr (by rw [List.flatMap_cons]; exact List.mem_append_left _ h')
        · exact hrest h

theorem isSide_names {u d : Bool} {s : Str} {G : List Elem} (h : IsSide u d s G) {w : Str} (hw : w ∈ elemNames G) (c : Char)
    (l : Str) : w ≠ '…' :: c :: l := by
  rcases elemNames_word hw with rfl | hw
  · simp [ellipsisStr]
  · rintro rfl
    exact wordOK_no_special (h.words_ok _ hw) (c := '…') (by simp) (by simp)

theorem readElem_count (G : List Elem) : (G.filterMap readElem).count .ell ≤ (G.flatMap Elem.words).count dots := by
  induction G with
  | nil => simp
  | cons e G ih =>
    rw [List.flatMap_cons, List.count_append]
    cases he : readElem e with
    | none => rw [List.filterMap_cons_none he]; omega
    | some a =>
      rw [List.filterMap_cons_some he]
      cases a with
      | name v => rw [List.count_cons_of_ne (by simp)]; omega
      | ell =>
        rw [List.count_cons_self]
        have : 1 ≤ e.words.count dots := by
          cases e with
          | bare w =>
            simp only [readElem, readWord] at he
            split at he
            · rename_i hd; simp [Elem.words, hd]
            · split at he <;> cases he
          | paren ws =>
            exfalso
            simp only [readElem] at he
            split at he
            · simp only [readWord] at he
              split at he
              · cases he
              · split at he <;> cases he
            · cases he
        omega

theorem IsEinsum.side {pattern : Str} {terms : List (List ESym)} {out : List ESym} (h : IsEinsum pattern terms out) :
    ∀ t ∈ out :: terms, ∃ d s G, IsSide true d s G ∧ G.map readElem = t.map some := by
  obtain ⟨Gs, G, ⟨parts, r, hne, rfl, hl, hr⟩, h1, h2⟩ := h
  intro t ht
  rcases List.mem_cons.1 ht with rfl | ht
  · exact ⟨_, _, G, hr, h2⟩
  · obtain ⟨i, hi, rfl⟩ := List.getElem_of_mem ht
    have hi' : i < Gs.length := by rw [h1.length_eq]; exact hi
    have hi'' : i < parts.length := by rw [hl.length_eq]; exact hi'
    exact ⟨_, _, _, hl.get hi'' hi', h1.get hi' hi⟩

/-- names in a pattern are not names of ellipsis axes -/
theorem IsEinsum.names {pattern : Str} {terms : List (List ESym)} {out : List ESym} (h : IsEinsum pattern terms out) :
    ∀ t ∈ out :: terms, ∀ w ∈ symNames t, ∀ c l, w ≠ '…' :: c :: l := by
  intro t ht w hw c l
  obtain ⟨d, s, G, hG, h2⟩ := h.side t ht
  exact isSide_names hG (elemNames_read h2 ▸ hw) c l

theorem IsEinsum.count {pattern : Str} {terms : List (List ESym)} {out : List ESym} (h : IsEinsum pattern terms out) :
    ∀ t ∈ out :: terms, t.count .ell ≤ 1 := by
  intro t ht
  obtain ⟨d, s, G, hG, h2⟩ := h.side t ht
  have := readElem_count G
  have e : G.filterMap readElem = t := by
    have := congrArg (List.filterMap id) h2
    simpa [List.filterMap_map] using this
  rw [e] at this
  exact this.trans hG.one_ellipsis

end

theorem writeSyms_rename (g : Str → Char) (t : List ESym) :
    writeSyms (fun w => w.headD 'a') (t.map (renameSym (fun w => [g w]))) = writeSyms g t := by
  induction t with
  | nil => rfl
  | cons a t ih => cases a <;> simp only [writeSyms, renameSym, List.map_cons, ih, List.headD_cons]

theorem writeEinsum_rename (g : Str → Char) (terms : List (List ESym)) (out : List ESym) :
    writeEinsum (fun w => w.headD 'a') (terms.map (List.map (renameSym (fun w => [g w])))) (out.map (renameSym (fun w => [g w]))) =
      writeEinsum g terms out := by
  unfold writeEinsum
  rw [writeSyms_rename, List.map_map]
  congr 3
  apply List.map_congr_left
  intro t _
  exact writeSyms_rename g t

section
variable [PyUnicode] {α : Type u} [CommSemiring α]

omit [PyUnicode] [CommSemiring α] in
theorem einsumTensors_map (xs : List (Tensor α)) : einsumTensors (xs.map .tensor) = .ok xs := by
  induction xs with
  | nil => rfl
  | cons x xs ih => simp only [List.map_cons, einsumTensors, ih]

omit [CommSemiring α] in
theorem einsum_eq (f : Str → List (Tensor α) → Py (Tensor α)) {xs : List (Tensor α)} (hx : xs ≠ []) (pattern : Str) :
    einsum f (xs.map .tensor ++ [.str pattern]) =
      match compactify pattern with
      | .error e => .error e
      | .ok s => f s xs := by
  obtain ⟨x, xs, rfl⟩ := List.exists_cons_of_ne_nil hx
  unfold einsum
  have hd : (List.map EinsumArg.tensor (x :: xs) ++ [EinsumArg.str pattern]).dropLast = List.map EinsumArg.tensor (x :: xs) :=
    List.dropLast_concat
  rw [if_neg (by simp), hd]
  simp only [List.getLast?_append, List.getLast?_singleton, Option.some_or]
  rcases compactify pattern with e | s
  · rfl
  · have := einsumTensors_map xs
    simp only [List.map_cons, einsumTensors, this]

omit [PyUnicode] in
/-- a lawful `einsum` with letters for the names `K` -/
theorem lawful_letters {f : Str → List (Tensor α) → Py (Tensor α)} (hf : EinsumLawful f) {terms : List (List ESym)}
    {out : List ESym} {K : List Str} (hK52 : K.length ≤ 52) (hmemK : ∀ t ∈ out :: terms, ∀ w ∈ symNames t, w ∈ K)
    (hno : ∀ w ∈ K, ∀ c l, w ≠ '…' :: c :: l) (hcount : ∀ t ∈ out :: terms, t.count .ell ≤ 1) {len : AxisMap} {n : Nat}
    {xs : List (Tensor α)} (hx : EinsumFits len n terms out xs) :
    ∃ y, f (writeEinsum (letterOf K) terms out) xs = .ok y ∧
      Contracts len (terms.map (symAxes n)) (symAxes n out) xs y := by
  have hKell : ∀ a ∈ ellAxes n, ∀ w, a = .str w → w ∉ K := by
    rintro a ha w rfl hw
    obtain ⟨c, l, e⟩ := ellAxes_long ha
    exact hno w hw c l (by simpa using e)
  let g : Str → Str := fun w => [letterOf K w]
  let φ := renameAxis K g
  let As := terms.map (symAxes n)
  have hcase : ∀ a ∈ As.flatten, (a ∈ ellAxes n ∧ φ a = a) ∨ ∃ w ∈ K, a = .str w ∧ φ a = .str (g w) := by
    intro a ha
    obtain ⟨A, hA, haA⟩ := List.mem_flatten.1 ha
    obtain ⟨t, ht, rfl⟩ := List.mem_map.1 hA
    rcases mem_symAxes.1 haA with ⟨-, hell⟩ | ⟨w, hw, rfl⟩
    · left
      refine ⟨hell, ?_⟩
      obtain ⟨c, l, rfl⟩ := ellAxes_long hell
      simp only [φ, renameAxis]
      rw [if_neg (hKell _ hell _ rfl)]
    · right
      have hk := hmemK t (by simp [ht]) w hw
      exact ⟨w, hk, rfl, by simp only [φ, renameAxis, if_pos hk]⟩
  have hinj : ∀ a ∈ As.flatten, ∀ c ∈ As.flatten, φ a = φ c → a = c := by
    intro a ha c hc hac
    rcases hcase a ha with ⟨h1, h2⟩ | ⟨w, hw, rfl, h2⟩ <;> rcases hcase c hc with ⟨h1', h2'⟩ | ⟨w', hw', rfl, h2'⟩
    · rw [← h2, hac, h2']
    · obtain ⟨x, l, e⟩ := ellAxes_long h1
      rw [h2, h2', e] at hac
      simp [g] at hac
    · obtain ⟨x, l, e⟩ := ellAxes_long h1'
      rw [h2, h2', e] at hac
      simp [g] at hac
    · rw [h2, h2'] at hac
      simp only [g, Axis.str.injEq, List.cons.injEq, and_true] at hac
      rw [letterOf_inj hK52 hw hw' hac]
  obtain ⟨len', hlen'⟩ := exists_len hinj len
  have hren : ∀ t ∈ out :: terms, symAxes n (t.map (renameSym g)) = (symAxes n t).map φ :=
    fun t ht => symAxes_rename hKell (hmemK t ht)
  have hB : ∀ b ∈ symAxes n out, b ∈ As.flatten := by
    intro b hb
    rcases mem_symAxes.1 hb with ⟨h1, h2⟩ | ⟨w, hw, rfl⟩
    · obtain ⟨t, ht, h3⟩ := hx.ellipsis.1 h1
      exact List.mem_flatten.2 ⟨_, List.mem_map_of_mem ht, mem_symAxes.2 (.inl ⟨h3, h2⟩)⟩
    · obtain ⟨t, ht, h3⟩ := hx.within w hw
      exact List.mem_flatten.2 ⟨_, List.mem_map_of_mem ht, mem_symAxes.2 (.inr ⟨w, h3, rfl⟩)⟩
  obtain ⟨y, hy, hc⟩ := hf (terms.map (List.map (renameSym g))) (out.map (renameSym g)) len' n xs (by
    intro t ht w hw
    have : ∃ t' ∈ out :: terms, t = t'.map (renameSym g) := by
      rcases List.mem_cons.1 ht with rfl | ht
      · exact ⟨out, by simp, rfl⟩
      · obtain ⟨t', ht', rfl⟩ := List.mem_map.1 ht
        exact ⟨t', by simp [ht'], rfl⟩
    obtain ⟨t', ht', rfl⟩ := this
    rw [symNames_rename] at hw
    obtain ⟨v, hv, rfl⟩ := List.mem_map.1 hw
    exact ⟨letterOf K v, letterOf_mem hK52 (hmemK t' ht' v hv), rfl⟩) (by
    intro t ht
    rcases List.mem_cons.1 ht with rfl | ht
    · rw [count_rename]; exact hcount out (by simp)
    · obtain ⟨t', ht', rfl⟩ := List.mem_map.1 ht
      rw [count_rename]; exact hcount t' (by simp [ht'])) (by
    refine ⟨hx.some_input, ?_, ?_, ?_, ?_⟩
    · rw [List.forall₂_map_left_iff]
      refine List.forall₂_iff_get.2 ⟨hx.shapes.length_eq, fun i h1 h2 => ?_⟩
      have hs := hx.shapes.get h1 h2
      have hmem : terms.get ⟨i, h1⟩ ∈ terms := List.get_mem _ _
      rw [hs, hren _ (List.mem_cons_of_mem _ hmem), List.map_map]
      apply List.map_congr_left
      intro a ha
      exact hlen' a (List.mem_flatten.2 ⟨_, List.mem_map_of_mem hmem, ha⟩)
    · rw [hren out (by simp)]
      exact List.Nodup.map_on (fun a ha c hc => hinj a (hB a ha) c (hB c hc)) hx.nodup
    · intro w hw
      rw [symNames_rename] at hw
      obtain ⟨v, hv, rfl⟩ := List.mem_map.1 hw
      obtain ⟨t, ht, hv'⟩ := hx.within v hv
      exact ⟨_, List.mem_map_of_mem ht, by rw [symNames_rename]; exact List.mem_map_of_mem hv'⟩
    · rw [ell_mem_rename, hx.ellipsis]
      constructor
      · rintro ⟨t, ht, he⟩
        exact ⟨_, List.mem_map_of_mem ht, (ell_mem_rename g t).2 he⟩
      · rintro ⟨t', ht', he⟩
        obtain ⟨t, ht, rfl⟩ := List.mem_map.1 ht'
        exact ⟨t, ht, (ell_mem_rename g t).1 he⟩)
  refine ⟨y, ?_, ?_⟩
  · rw [← hy, writeEinsum_rename]
  · rw [hren out (by simp), List.map_map] at hc
    refine Contracts.of_rename (φ := φ) (len' := len') hB hinj hlen' ?_
    rw [List.map_map]
    rw [show (terms.map (symAxes n ∘ List.map (renameSym g))) = terms.map (List.map φ ∘ symAxes n) from
      List.map_congr_left (fun t ht => hren t (by simp [ht]))] at hc
    exact hc

theorem einsum_contracts {f : Str → List (Tensor α) → Py (Tensor α)} (hf : EinsumLawful f) {pattern : Str}
    {terms : List (List ESym)} {out : List ESym} (h : IsEinsum pattern terms out)
    (h52 : distinct (terms.flatMap symNames) ≤ 52) {len : AxisMap} {n : Nat} {xs : List (Tensor α)}
    (hx : EinsumFits len n terms out xs) :
    ∃ y, einsum f (xs.map .tensor ++ [.str pattern]) = .ok y ∧
      Contracts len (terms.map (symAxes n)) (symAxes n out) xs y := by
  rw [einsum_eq f hx.some_input, compactify_syms h, if_pos h52, if_pos hx.within]
  set K := grow [] (terms.flatMap symNames) with hKdef
  have hK52 : K.length ≤ 52 := by rw [hKdef, grow_length]; exact h52
  have hmemK : ∀ t ∈ out :: terms, ∀ w ∈ symNames t, w ∈ K := by
    intro t ht w hw
    rw [hKdef, mem_grow]
    right
    rcases List.mem_cons.1 ht with rfl | ht
    · obtain ⟨t', ht', hw'⟩ := hx.within w hw
      exact List.mem_flatMap.2 ⟨t', ht', hw'⟩
    · exact List.mem_flatMap.2 ⟨t, ht, hw⟩
  have hKname : ∀ w ∈ K, ∃ t ∈ out :: terms, w ∈ symNames t := by
    intro w hw
    rw [hKdef, mem_grow] at hw
    rcases hw with hw | hw
    · cases hw
    · obtain ⟨t, ht, hw⟩ := List.mem_flatMap.1 hw
      exact ⟨t, by simp [ht], hw⟩
  exact lawful_letters hf hK52 hmemK (fun w hw c l => by
    obtain ⟨t, ht, hw⟩ := hKname w hw
    exact h.names t ht w hw c l) h.count hx

end

end Einops
