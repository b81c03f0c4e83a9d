import Verif.Proofs.SideMessages
import Verif.Props.Exceptions

/-!
# What a call says when it refuses is true
-/

namespace Einops

universe u

theorem SetOrder.lists (so : SetOrder) {k : Nat} {l : List Axis} {P : Axis → Prop} (h0 : l ≠ []) (h1 : l.Nodup)
    (h2 : ∀ a, a ∈ l ↔ P a) : Lists (so.order k l) P := by
  have hp := so.perm k l
  refine ⟨fun h => ?_, hp.nodup_iff.2 h1, fun a => by rw [hp.mem_iff, h2]⟩
  rw [h] at hp
  exact h0 hp.symm.eq_nil

theorem raiseFor_error {so : SetOrder} {l : List Axis} {m : List Axis → Message} {r : PyM Unit} {f : Fault}
    (h : raiseFor so l m r = .error f) : (l ≠ [] ∧ f = .einops (m (so.order 0 l))) ∨ (l = [] ∧ r = .error f) := by
  unfold raiseFor at h
  split at h
  · rename_i hl
    cases h
    exact .inl ⟨hl, rfl⟩
  · rename_i hl
    exact .inr ⟨by simpa using hl, h⟩

section
variable [PyUnicode] {GL GR : List Elem} {l r : Str} (hL : IsSide false false l GL) (hR : IsSide false false r GR)

theorem describe_ellipsis {side : Nat} {G : List Elem} : (describe side G).hasEllipsis = true ↔ dots ∈ sideWords G := by
  simp [describe, sideWords]

theorem describe_no_ellipsis {side : Nat} {G : List Elem} : (describe side G).hasEllipsis = false ↔ dots ∉ sideWords G := by
  simp [describe, sideWords]

include hL hR in
theorem checkSidesM_says {so : SetOrder} {pattern : Str} {op : OpKind} {kw : List (Str × Size)} {shape : List Nat} {f : Fault}
    (h : checkSidesM so pattern (describe 0 GL) (describe 1 GR) op (kw.map Prod.fst) = .error f) :
    ∃ m, f = .einops m ∧ m.SaysOf op pattern kw shape GL GR := by
  have eL := side_no_ell hL
  have eR := side_no_ell hR
  have hids : ∀ side G a, a ∈ (describe side G).identifiers ↔ a ∈ sideAxes side G := fun side G a => mem_describe_ids
  have hnd := describe_ids_nodup
  have hLR := within_iff (kL := 0) (kR := 0) hL hR (sL := 0) (sR := 1) (by omega)
  unfold checkSidesM at h
  split at h
  · rename_i hc
    cases h
    simp only [Bool.and_eq_true, Bool.not_eq_true'] at hc
    exact ⟨_, rfl, rfl, describe_ellipsis.1 hc.2, describe_no_ellipsis.1 hc.1⟩
  rename_i hc1
  split at h
  · rename_i hc
    cases h
    simp only [Bool.and_eq_true, beq_iff_eq] at hc
    exact ⟨_, rfl, rfl, (ellPos_paren (G := GL) hL.one_ellipsis).1 hc.2⟩
  rename_i hc2
  have hE : EllipsisOK GL GR := by
    rw [ellipsisOK_iff hL]
    rintro (⟨h1, h2⟩ | ⟨h1, h2⟩)
    · exact hc1 (by simp [h1, h2])
    · exact hc2 (by simp [h1, h2])
  split at h
  · rename_i hop
    split at h
    · rename_i hu
      cases h
      simp only [Bool.or_eq_true, nonUnitary_iff, OnlyUnits] at hu
      push Not at hu
      refine ⟨_, rfl, hop, hE, ?_⟩
      rcases hu with ⟨w, h1, h2, h3⟩ | ⟨w, h1, h2, h3⟩
      · exact ⟨w, List.mem_append_left _ h1, h2, h3⟩
      · exact ⟨w, List.mem_append_right _ h1, h2, h3⟩
    · rename_i hu
      simp only [Bool.or_eq_true, nonUnitary_iff, not_or, not_not] at hu
      rcases raiseFor_error h with ⟨hl, rfl⟩ | ⟨_, h⟩
      · refine ⟨_, rfl, hop, hE, hu.1, hu.2, so.lists hl ?_ ?_⟩
        · rw [List.nodup_append]
          refine ⟨(hnd 0 GL).filter _, (hnd 1 GR).filter _, ?_⟩
          rintro a ha b hb rfl
          simp only [List.mem_filter, decide_eq_true_eq] at ha hb
          exact hb.2 ha.1
        · intro a
          simp only [List.mem_append, List.mem_filter, decide_eq_true_eq, hids]
      · cases h
  rename_i hop1
  split at h
  · rename_i hop
    rcases raiseFor_error h with ⟨hl, rfl⟩ | ⟨hl, h⟩
    · refine ⟨_, rfl, hop, hE, so.lists hl ((hnd 0 GL).filter _) ?_⟩
      intro a
      simp only [List.mem_filter, decide_eq_true_eq, hids]
    · rcases raiseFor_error h with ⟨hl', rfl⟩ | ⟨_, h⟩
      · have hw := hLR.1 (by
          intro a ha
          by_contra hc
          have : a ∈ (describe 0 GL).identifiers.filter (fun a => decide (a ∉ (describe 1 GR).identifiers)) := by
            simp only [List.mem_filter, decide_eq_true_eq, mem_describe_ids]
            exact ⟨ha, hc⟩
          rw [hl] at this
          cases this)
        refine ⟨_, rfl, hop, hE, hw.2, hw.1, so.lists hl' ((hnd 1 GR).filter _) ?_⟩
        intro a
        simp only [List.mem_filter, Bool.and_eq_true, decide_eq_true_eq, mem_describe_ids]
        constructor
        · rintro ⟨h1, ⟨h2, h3⟩, h4⟩
          cases a with
          | anon => simp [Axis.isAnon] at h2
          | str s =>
            obtain ⟨w, hw, ⟨rfl, rfl⟩ | ⟨h6, h7, rfl⟩⟩ := str_mem_wordsAxes.1 h1
            · exact absurd ((marker_mem_wordsAxes eL).2 (hE.1 hw)) h3
            · exact ⟨s, hw, h7, fun h => h3 ((str_mem_side eL h6 (eR _ hw)).2 ⟨h, h7⟩),
                fun h => h4 (List.mem_map.2 ⟨_, h, rfl⟩), rfl⟩
        · rintro ⟨w, h1, h2, h3, h4, rfl⟩
          have hd : w ≠ dots := by
            rintro rfl
            exact h3 (hE.1 h1)
          refine ⟨(str_mem_side eR hd (eR _ h1)).2 ⟨h1, h2⟩, ⟨rfl, fun h => h3 ((str_mem_side eL hd (eR _ h1)).1 h).1⟩, ?_⟩
          rw [List.mem_map]
          rintro ⟨n, hn, hn'⟩
          cases hn'
          exact h4 hn
      · cases h
  rename_i hop2
  have hred : ∀ {f : Fault}, (op = .callable ∨ ∃ s ∈ builtins, op = .name s) →
      raiseFor so ((describe 1 GR).identifiers.filter (fun a => decide (a ∉ (describe 0 GL).identifiers)))
        (.rightOfReduce op) (.ok ()) = .error f → ∃ m, f = .einops m ∧ m.SaysOf op pattern kw shape GL GR := by
    intro f hop h
    rcases raiseFor_error h with ⟨hl, rfl⟩ | ⟨_, h⟩
    · refine ⟨_, rfl, rfl, hop, hE, so.lists hl ((hnd 1 GR).filter _) ?_⟩
      intro a
      simp only [List.mem_filter, decide_eq_true_eq, hids]
    · cases h
  cases op with
  | callable => exact hred (.inl rfl) h
  | name s =>
    simp only at h
    split at h
    · rename_i hs
      exact hred (.inr ⟨s, hs, rfl⟩) h
    · rename_i hs
      cases h
      exact ⟨_, rfl, rfl, hE, s, rfl, hs, fun h => hop1 (by rw [h]), fun h => hop2 (by rw [h])⟩

include hL in
theorem expandSidesM_says {op : OpKind} {pattern : Str} {kw : List (Str × Size)} {shape : List Nat} {f : Fault}
    (hs : SidesOK op GL GR (kw.map Prod.fst))
    (h : expandSidesM (describe 0 GL) (describe 1 GR) shape.length = .error f) :
    ∃ m, f = .einops m ∧ m.SaysOf op pattern kw shape GL GR := by
  have hlen : (describe 0 GL).composition.length = GL.length := denote_length 0 0 GL
  unfold expandSidesM at h
  rw [hlen] at h
  split at h
  · rename_i hd
    split at h
    · rename_i hn
      cases h
      refine ⟨_, rfl, hs, describe_ellipsis.1 hd, ?_, rfl, hn⟩
      omega
    · cases h
  · rename_i hd
    split at h
    · rename_i hn
      cases h
      exact ⟨_, rfl, hs, describe_no_ellipsis.1 (by simpa using hd), rfl, rfl, hn⟩
    · cases h

/-! ### keywords -/

theorem badName_iff {n : Str} : checkAxisName false n = false ↔ BadName n := by
  unfold checkAxisName BadName
  rw [← isIdentifier_iff]
  split
  · rename_i h
    simp at h
    simp [h]
  · rename_i h
    simp at h
    split
    · rename_i h2
      simp [h2]
    · rename_i h2
      simp [h, h2]

theorem markExpectedM_error {names : List Str} {d : List (Axis × Int)} {f : Fault} (h : markExpectedM d names = .error f) :
    ∃ n before after, names = before ++ n :: after ∧ (∀ k ∈ before, ¬ BadName k ∧ Axis.str k ∈ d.map Prod.fst) ∧
      ((f = .einops (.invalidName n) ∧ BadName n) ∨
        (f = .einops (.unused n) ∧ ¬ BadName n ∧ Axis.str n ∉ d.map Prod.fst)) := by
  induction names generalizing d with
  | nil => cases h
  | cons n ns ih =>
    unfold markExpectedM at h
    split at h
    · rename_i hc
      cases h
      exact ⟨n, [], ns, rfl, by simp, .inl ⟨rfl, badName_iff.1 (by simpa using hc)⟩⟩
    · rename_i hc
      have hnb : ¬ BadName n := fun hb => by simp [badName_iff.2 hb] at hc
      cases hg : dictGet d (.str n) with
      | none =>
        rw [hg] at h
        cases h
        exact ⟨n, [], ns, rfl, by simp, .inr ⟨rfl, hnb, dictGet_none.1 hg⟩⟩
      | some v =>
        rw [hg] at h
        obtain ⟨k, before, after, rfl, hb, h1⟩ := ih h
        have hm : Axis.str n ∈ d.map Prod.fst := by
          rw [← dictGet_isSome, hg]; rfl
        rw [dictSet_keys_of_mem _ hm] at h1 hb
        refine ⟨k, n :: before, after, rfl, ?_, h1⟩
        intro k hk
        rcases List.mem_cons.1 hk with rfl | hk
        · exact ⟨hnb, hm⟩
        · exact hb k hk

theorem identifier_not_number {w : Str} (h : IsIdentifier w) : ¬ IsNumber w := by
  obtain ⟨c, cs, rfl, h1, _⟩ := h
  rintro ⟨_, h2⟩
  obtain ⟨d, hd⟩ := h2 c (by simp)
  rcases h1 with h1 | rfl
  · rw [PyUnicode.decimal_not_start _ _ hd] at h1
    cases h1
  · have := PyUnicode.decimal_alnum _ _ hd
    rw [PyUnicode.special_not_alnum '_' (by simp)] at this
    cases this

theorem identifier_ne_dots {w : Str} (h : IsIdentifier w) : w ≠ dots := by
  rintro rfl
  have := isIdentifier_iff.2 h
  simp [dots, isIdentifier, (PyUnicode.special_not_xid '.' (by simp)).1] at this

/-! ### groups -/

omit [PyUnicode] in
theorem zip_map_self {β γ : Type} (f : β → γ) (g : List β) : g.zip (g.map f) = g.map (fun a => (a, f a)) := by
  induction g with
  | nil => rfl
  | cons a g ih => simp_all

omit [PyUnicode] in
theorem unknown_part (names : List Str) (g : List Axis) :
    ((g.zip (g.map (markedLength names))).filter (fun p => decide (p.2 = unknownAxisLength))).map Prod.fst =
      g.filter (fun a => !isKnown names a) := by
  rw [zip_map_self, List.filter_map, List.map_map]
  have : (Prod.fst ∘ fun a => (a, markedLength names a)) = (id : Axis → Axis) := rfl
  rw [this, List.map_id]
  congr 1
  funext a
  simp only [Function.comp]
  rw [Bool.eq_iff_iff, decide_eq_true_eq, markedLength_unknown]
  simp

omit [PyUnicode] in
theorem knownUnknownM_says {so : SetOrder} {ex : Expanded} {names : List Str} {i : Nat} {g : List Axis} (hg : g.Nodup)
    (hsub : ∀ a ∈ g, a ∈ elementary so ex) {m : Message}
    (h : knownUnknownM so (elementary so ex) ((elementary so ex).map (fun a => (a, markedLength names a))) i g =
      .error (.einops m)) :
    1 < (g.filter (fun a => !isKnown names a)).length ∧
      m = .cannotInfer (so.order (2 * i + 2) (g.filter (fun a => !isKnown names a))) := by
  unfold knownUnknownM at h
  rw [mapE_eq_ok_map (g := markedLength names) (fun a ha => by
    simp [dictGetE, dictGet_map, hsub a ha])] at h
  dsimp only at h
  rw [unknown_part, setOf_nodup (hg.filter _)] at h
  split at h
  · rename_i h1
    cases h
    exact ⟨h1, rfl⟩
  · split at h
    · cases h
    · split at h
      · cases h
      · split at h <;> cases h

omit [PyUnicode] in
theorem knownUnknownM_ok {so : SetOrder} {ex : Expanded} {names : List Str} {i : Nat} {g : List Axis} (hg : g.Nodup)
    (hsub : ∀ a ∈ g, a ∈ elementary so ex) {v : List Nat × List Nat}
    (h : knownUnknownM so (elementary so ex) ((elementary so ex).map (fun a => (a, markedLength names a))) i g = .ok v) :
    (g.filter (fun a => !isKnown names a)).length ≤ 1 := by
  unfold knownUnknownM at h
  rw [mapE_eq_ok_map (g := markedLength names) (fun a ha => by
    simp [dictGetE, dictGet_map, hsub a ha])] at h
  dsimp only at h
  rw [unknown_part, setOf_nodup (hg.filter _)] at h
  split at h
  · cases h
  · rename_i h1
    omega

omit [PyUnicode] in
theorem mapE_error_first {ε β γ : Type} {f : β → Except ε γ} {l : List β} {e : ε} (h : mapE f l = .error e) :
    ∃ before a after, l = before ++ a :: after ∧ f a = .error e ∧ ∀ b ∈ before, ∃ v, f b = .ok v := by
  induction l with
  | nil => cases h
  | cons a l ih =>
    simp only [mapE] at h
    cases ha : f a with
    | error e' => rw [ha] at h; cases h; exact ⟨[], a, l, rfl, ha, by simp⟩
    | ok r =>
      rw [ha] at h
      simp only at h
      split at h
      · rename_i e' he
        cases h
        obtain ⟨before, b, after, rfl, h1, h2⟩ := ih he
        refine ⟨a :: before, b, after, rfl, h1, ?_⟩
        intro c hc
        rcases List.mem_cons.1 hc with rfl | hc
        · exact ⟨r, ha⟩
        · exact h2 c hc
      · cases h

/-! ### sizes -/

section
variable (so : SetOrder) (ex : Expanded) (wf : PlanWF ex) {kw : List (Str × Size)} (hkw : IntKw kw)

omit [PyUnicode]

include wf in
theorem inferAxisM_says {F : Axis → Size} (hF : ∀ a s, knownSize kw a = some s → F a = s)
    (need : Bool) (i : Nat) (g : List Axis) (hg : ∀ a ∈ g, a ∈ elementary so ex) {s : Size} {m : Message}
    (h : inferAxisM ((elementary so ex).map F, need) s (kuOf so ex (kw.map Prod.fst) i g) = .error (.einops m)) :
    ((∀ a ∈ g, isKnown (kw.map Prod.fst) a = true) ∧ m = .mismatch s.val (knownProd kw g).val ∧
        s.val ≠ (knownProd kw g).val) ∨
      ((∃ a ∈ g, isKnown (kw.map Prod.fst) a = false) ∧ m = .notDivisible s.val (knownProd kw g).val ∧
        (knownProd kw g).val ≠ 0 ∧ Int.fmod s.val (knownProd kw g).val ≠ 0) := by
  set names := kw.map Prod.fst with hnames
  set ks := so.order (2 * i + 1) (g.filter (isKnown names)) with hks
  have hperm : ks.Perm (g.filter (isKnown names)) := so.perm _ _
  have hget : mapE (getE ((elementary so ex).map F)) (ks.map (elementary so ex).idxOf) = .ok (ks.map F) := by
    rw [mapE_map]
    apply mapE_eq_ok_map
    intro a ha
    have : a ∈ elementary so ex := hg a (List.mem_of_mem_filter (hperm.mem_iff.1 ha))
    simp only [getE, getElem?_idxOf_map _ F this]
  have hkp : sizeProd (ks.map F) = knownProd kw g := by
    rw [sizeProd_perm (hperm.map F), filterMap_known kw F hF]
    rfl
  unfold inferAxisM kuOf at h
  dsimp only at h
  rw [← hks] at h
  split at h
  · cases hse : setE ((elementary so ex).map F) _ s with
    | error e => rw [hse] at h; cases h
    | ok v => rw [hse] at h; cases h
  · rw [hget] at h
    dsimp only at h
    rw [hkp] at h
    split at h
    · rename_i hun
      split at h
      · rename_i hc
        cases h
        simp only [Bool.and_eq_true, decide_eq_true_eq] at hc
        refine .inl ⟨fun a ha => ?_, rfl, hc.2⟩
        by_contra hk
        have : a ∈ g.filter (fun a => !isKnown names a) := List.mem_filter.2 ⟨ha, by simpa using hk⟩
        rw [List.map_eq_nil_iff] at hun
        rw [hun] at this
        cases this
      · cases h
    · rename_i u us hun
      split at h
      · cases h
      · rename_i h0
        split at h
        · rename_i hc
          cases h
          simp only [Bool.and_eq_true, decide_eq_true_eq] at hc h0
          refine .inr ⟨?_, rfl, fun h => h0 ⟨hc.1, h⟩, hc.2⟩
          have hne : g.filter (fun a => !isKnown names a) ≠ [] := by
            intro h
            rw [h] at hun
            cases hun
          obtain ⟨a, ha, hk⟩ := filter_ne_nil_iff.1 hne
          exact ⟨a, ha, by simpa using hk⟩
        · cases hse : setE ((elementary so ex).map F) u (s.fdiv (knownProd kw g)) with
          | error e => rw [hse] at h; cases h
          | ok v => rw [hse] at h; cases h

include wf hkw in
theorem inferAllM_says (shape : List Nat) (gs : List (List Axis)) (i : Nat) (F : Axis → Size)
    (hF : ∀ a s, knownSize kw a = some s → F a = s) (need : Bool)
    (hsub : ∀ g ∈ gs, ∀ a ∈ g, a ∈ elementary so ex)
    (hu : ∀ g ∈ gs, (g.filter (fun a => !isKnown (kw.map Prod.fst) a)).length ≤ 1) {m : Message}
    (h : inferAllM (shape.map Size.ofNat) ((elementary so ex).map F, need)
        ((gs.zipIdx i).map (fun p => (kuOf so ex (kw.map Prod.fst) p.2 p.1, p.2))) = .error (.einops m)) :
    ∃ (k d : Nat) (g : List Axis), gs[k]? = some g ∧ shape[i + k]? = some d ∧
      (∀ j < k, ∀ g' d', gs[j]? = some g' → shape[i + j]? = some d' → Agrees kw g' d') ∧
      (((∀ a ∈ g, isKnown (kw.map Prod.fst) a = true) ∧ m = .mismatch d (knownProd kw g).val ∧
          (d : Int) ≠ (knownProd kw g).val) ∨
        ((∃ a ∈ g, isKnown (kw.map Prod.fst) a = false) ∧ m = .notDivisible d (knownProd kw g).val ∧
          (knownProd kw g).val ≠ 0 ∧ ¬ (knownProd kw g).val ∣ (d : Int))) := by
  induction gs generalizing i F need with
  | nil => cases h
  | cons g gs ih =>
    simp only [List.zipIdx_cons, List.map_cons, inferAllM, getE, List.getElem?_map] at h
    cases hd : shape[i]? with
    | none => rw [hd] at h; cases h
    | some d =>
      rw [hd] at h
      simp only [Option.map_some] at h
      have heq := inferAxis_eq so ex wf kw F hF need i g (hsub g (by simp)) (hu g (by simp)) (Size.ofNat d)
      rw [← erase_inferAxisM] at heq
      cases hi : inferAxisM ((elementary so ex).map F, need) (Size.ofNat d) (kuOf so ex (kw.map Prod.fst) i g) with
      | error e =>
        rw [hi] at h
        cases h
        refine ⟨0, d, g, rfl, by simpa using hd, fun j hj => absurd hj (by omega), ?_⟩
        rcases inferAxisM_says so ex wf hF need i g (hsub g (by simp)) hi with ⟨h1, h2, h3⟩ | ⟨h1, h2, h3, h4⟩
        · exact .inl ⟨h1, h2, h3⟩
        · exact .inr ⟨h1, h2, h3, by rw [Int.dvd_iff_fmod_eq_zero]; exact h4⟩
      | ok st =>
        rw [hi] at h heq
        simp only at h
        cases hge : groupErr kw g (Size.ofNat d) with
        | some e => rw [hge] at heq; cases heq
        | none =>
          rw [hge] at heq
          cases heq
          obtain ⟨k, d', g', h1, h2, h3, h4⟩ := ih (i + 1) _ (by
            intro a s ha
            rw [if_neg (by rw [ha]; simp)]
            exact hF a s ha) _ (fun g' hg' => hsub g' (by simp [hg'])) (fun g' hg' => hu g' (by simp [hg'])) h
          refine ⟨k + 1, d', g', by simpa using h1, by rw [← h2]; congr 1; omega, ?_, h4⟩
          intro j hj g'' d'' hg hd'
          cases j with
          | zero =>
            simp only [List.getElem?_cons_zero, Option.some.injEq, Nat.add_zero] at hg hd'
            rw [hd] at hd'
            cases hd'
            subst hg
            exact (agrees_iff hkw).2 hge
          | succ j =>
            refine h3 j (by omega) g'' d'' (by simpa using hg) ?_
            rw [← hd']
            congr 1
            omega

end

end

/-! ### the recipe -/

section
variable [PyUnicode]

/-- the dimension of a group with more than one axis is written in parentheses -/
theorem group_paren {ell : List Axis} {G : List Elem} {k : Nat} (hp : ∀ ws, Elem.paren ws ∈ G → dots ∉ ws)
    (hell : ∀ w ∈ sideWords G, '…' ∉ w) {g : List Axis} (hg : g ∈ spread ell (denote 0 k G)) (h2 : 1 < g.length) :
    ∃ ws j, Elem.paren ws ∈ G ∧ g = wordsAxes 0 j ws := by
  induction G generalizing k with
  | nil => simp [denote, spread] at hg
  | cons e G ih =>
    have hrest : ∀ j, g ∈ spread ell (denote 0 j G) → ∃ ws j, Elem.paren ws ∈ e :: G ∧ g = wordsAxes 0 j ws := by
      intro j hj
      obtain ⟨ws, j, h3, h4⟩ := ih (fun ws h => hp ws (by simp [h]))
        (fun w hw => hell w (by rw [sideWords, List.flatMap_cons]; exact List.mem_append_right _ hw)) hj
      exact ⟨ws, j, by simp [h3], h4⟩
    cases e with
    | bare w =>
      unfold denote at hg
      by_cases hw : w = dots
      · rw [if_pos hw] at hg
        unfold spread at hg
        rcases List.mem_append.1 hg with hg | hg
        · obtain ⟨a, _, rfl⟩ := List.mem_map.1 hg
          simp at h2
        · exact hrest _ hg
      · rw [if_neg hw] at hg
        unfold spread at hg
        rcases List.mem_cons.1 hg with hg | hg
        · exfalso
          subst hg
          have hne : w ≠ ellipsisStr := by
            rintro rfl
            exact hell ellipsisStr (by simp [sideWords, Elem.words]) (by simp [ellipsisStr])
          unfold wordAxes at h2
          rw [if_neg hw] at h2
          split at h2
          · split at h2 <;> simp at h2
          · simp [hne] at h2
        · exact hrest _ hg
    | paren ws =>
      unfold denote spread at hg
      rcases List.mem_cons.1 hg with hg | hg
      · refine ⟨ws, k, by simp, ?_⟩
        rw [hg]
        have hno : Axis.str ellipsisStr ∉ wordsAxes 0 k ws := by
          intro hm
          obtain ⟨w, hw, ⟨rfl, _⟩ | ⟨_, _, h⟩⟩ := str_mem_wordsAxes.1 hm
          · exact hp ws (by simp) hw
          · subst h
            exact hell ellipsisStr (by simp [sideWords, Elem.words, hw]) (by simp [ellipsisStr])
        have : (wordsAxes 0 k ws).flatMap (fun a => if a = .str ellipsisStr then ell else [a]) =
            (wordsAxes 0 k ws).flatMap (fun a => [a]) := by
          apply List.flatMap_congr
          intro a ha
          rw [if_neg]
          rintro rfl
          exact hno ha
        rw [this]
        simp
      · exact hrest _ hg

variable {GL GR : List Elem} {l r : Str} (hL : IsSide false false l GL) (hR : IsSide false false r GR)

include hL hR in
theorem buildRecipeM_says {so : SetOrder} {op : OpKind} {pattern : Str} {kw : List (Str × Size)} {shape : List Nat} {n : Nat}
    {m : Message} (hs : SidesOK op GL GR (kw.map Prod.fst)) (hn : ellCount GL shape.length = some n)
    (h : buildRecipeM so (exOf GL GR n) (kw.map Prod.fst) = .error (.einops m)) : m.SaysOf op pattern kw shape GL GR ∧
      ((∃ n, m = .invalidName n) ∨ (∃ n, m = .unused n) ∨ ∃ A, m = .cannotInfer A) := by
  have eL := side_no_ell hL
  have eR := side_no_ell hR
  have hE := sidesOK_ellipsis hs
  have hG : ∃ L R, Groups GL GR shape.length L R := ⟨_, _, (groups_iff hL hE shape.length _ _).2 ⟨n, hn, rfl, rfl⟩⟩
  have wf := exOf_wf hL hR n
  set ex := exOf GL GR n with hex
  set names := kw.map Prod.fst with hnames
  have hEn := elementary_nodup so ex wf.plan
  have hkeys : ((elementary so ex).map (fun a => (a, firstLength a))).map Prod.fst = elementary so ex := by
    rw [List.map_map]; exact List.map_id _
  unfold buildRecipeM at h
  rw [knownAll_eq so ex wf.plan] at h
  simp only [hkeys] at h
  cases hm : markExpectedM ((elementary so ex).map (fun a => (a, firstLength a))) names with
  | error f =>
    rw [hm] at h
    cases h
    obtain ⟨w, before, after, hw, hb, hc⟩ := markExpectedM_error hm
    have hbefore : KeywordsUsed GL GR before := by
      rw [← namesOK_iff hL hR n]
      intro k hk
      obtain ⟨h1, h2⟩ := hb k hk
      rw [hkeys, mem_elementary] at h2
      refine ⟨?_, h2⟩
      cases hck : checkAxisName false k with
      | false => exact absurd (badName_iff.1 hck) h1
      | true => rfl
    rcases hc with ⟨h1, h2⟩ | ⟨h1, h2, h3⟩
    · cases h1
      exact ⟨⟨hs, hG, ⟨before, after, hw, hbefore⟩, h2⟩, .inl ⟨_, rfl⟩⟩
    · cases h1
      rw [hkeys, mem_elementary] at h3
      push Not at h3
      rw [wf.rghtIds_iff] at h3
      have hid : IsIdentifier w := by
        by_contra hc
        exact h2 (.inl hc)
      have hno := isIdentifier_no_ell (isIdentifier_iff.2 hid)
      refine ⟨⟨hs, hG, ⟨before, after, hw, hbefore⟩, h2, fun h => h3.1 ?_, fun h => h3.2 ?_⟩, .inr (.inl ⟨_, rfl⟩)⟩
      · exact (name_mem_flatten eL hno).2 ⟨h, identifier_ne_dots hid, identifier_not_number hid⟩
      · exact (name_mem_flatten eR hno).2 ⟨h, identifier_ne_dots hid, identifier_not_number hid⟩
  | ok d =>
    rw [hm] at h
    simp only at h
    have hmark := erase_markExpectedM names ((elementary so ex).map (fun a => (a, firstLength a)))
    rw [hm, markExpected_eq _ hEn] at hmark
    split at hmark
    swap
    · cases hmark
    rename_i hnames'
    cases hmark
    have hku : KeywordsUsed GL GR names := by
      rw [← namesOK_iff hL hR n]
      intro w hw
      obtain ⟨h1, h2⟩ := hnames' w hw
      rw [mem_elementary] at h2
      exact ⟨h1, h2⟩
    cases hmap : mapE (fun p : List Axis × Nat => knownUnknownM so (elementary so ex)
        ((elementary so ex).map fun a => (a, if a ∈ names.map Axis.str then expectedAxisLength else firstLength a))
        p.2 p.1) ex.left.zipIdx with
    | error f =>
      rw [hmap] at h
      cases h
      obtain ⟨bs, ⟨g, i⟩, as, hp, hf, hbs⟩ := mapE_error_first hmap
      have hleft : ex.left = bs.map Prod.fst ++ g :: as.map Prod.fst := by
        have := congrArg (List.map Prod.fst) hp
        simpa using this
      have hgm : g ∈ ex.left := by rw [hleft]; simp
      have hgn : g.Nodup := (List.nodup_flatten.1 wf.left_nodup).1 g hgm
      obtain ⟨h1, rfl⟩ := knownUnknownM_says (names := names) hgn (fun a ha =>
        (mem_elementary so ex).2 (.inl (List.mem_flatten.2 ⟨g, hgm, ha⟩))) hf
      have hlen : 1 < g.length := lt_of_lt_of_le h1 (List.length_filter_le _ _)
      obtain ⟨ws, j, h2, h3⟩ := group_paren hE.2 eL hgm hlen
      refine ⟨⟨hs, hku, ?_, ⟨ex.left, ex.rght, bs.map Prod.fst, g, as.map Prod.fst,
        (groups_iff hL hE shape.length _ _).2 ⟨n, hn, rfl, rfl⟩, hleft, ?_,
        so.lists (by intro h; rw [h] at h1; simp at h1) (hgn.filter _) (fun a => by rw [List.mem_filter, Bool.not_eq_true'])⟩,
        ws, h2, so.lists (by intro h; rw [h] at h1; simp at h1) (hgn.filter _) ?_⟩, .inr (.inr ⟨_, rfl⟩)⟩
      · rw [(so.perm _ _).length_eq]
        exact h1
      · intro g' hg'
        obtain ⟨⟨g'', i'⟩, hb', rfl⟩ := List.mem_map.1 hg'
        obtain ⟨v, hv⟩ := hbs _ hb'
        have hm' : g'' ∈ ex.left := by rw [hleft]; exact List.mem_append_left _ hg'
        exact knownUnknownM_ok (names := names) ((List.nodup_flatten.1 wf.left_nodup).1 g'' hm') (fun a ha =>
          (mem_elementary so ex).2 (.inl (List.mem_flatten.2 ⟨g'', hm', ha⟩))) hv
      · intro a
        rw [List.mem_filter, h3]
        have hws : ∀ w ∈ ws, w ≠ dots ∧ w ∈ sideWords GL := fun w hw =>
          ⟨fun h => hE.2 ws h2 (h ▸ hw), List.mem_flatMap.2 ⟨_, h2, by simpa [Elem.words] using hw⟩⟩
        constructor
        · rintro ⟨h4, h5⟩
          cases a with
          | anon => simp [isKnown] at h5
          | str s =>
            obtain ⟨w, hw, ⟨rfl, _⟩ | ⟨_, h6, rfl⟩⟩ := str_mem_wordsAxes.1 h4
            · exact absurd rfl (hws _ hw).1
            · exact ⟨s, hw, h6, by simpa [isKnown, ← hnames] using h5, rfl⟩
        · rintro ⟨w, hw, h4, h5, rfl⟩
          exact ⟨str_mem_wordsAxes.2 ⟨w, hw, .inr ⟨(hws w hw).1, h4, rfl⟩⟩, by simpa [isKnown, ← hnames] using h5⟩
    | ok ic =>
      rw [hmap] at h
      simp only at h
      split at h
      · cases h
      · split at h
        · cases h
        · split at h
          · cases h
          · split at h <;> cases h

theorem prepareRecipeM_saysOf {so : SetOrder} {op : OpKind} {pattern l r : Str} {GL GR : List Elem}
    (hsp : splitArrow pattern = .ok (l, r)) (hell : '…' ∉ pattern) (hGL : IsSide false false l GL)
    (hGR : IsSide false false r GR) {kw : List (Str × Size)} {shape : List Nat} {m : Message}
    (h : prepareRecipeM so pattern op (kw.map Prod.fst) shape.length = .error (.einops m)) :
    m.SaysOf op pattern kw shape GL GR := by
  obtain ⟨rfl, _, _⟩ := splitArrow_iff.1 hsp
  simp only [List.mem_append, not_or] at hell
  unfold prepareRecipeM at h
  rw [hsp] at h
  simp only at h
  have hl := erase_parseExpressionM 0 false false l
  have hr := erase_parseExpressionM 1 false false r
  rw [(parseExpression_iff 0 false false l hell.1.1 _).2 ⟨GL, hGL, rfl⟩] at hl
  rw [(parseExpression_iff 1 false false r hell.2 _).2 ⟨GR, hGR, rfl⟩] at hr
  cases hpl : parseExpressionM 0 false false l with
  | error e => rw [hpl] at hl; cases hl
  | ok pl =>
  rw [hpl] at hl h
  cases hl
  cases hpr : parseExpressionM 1 false false r with
  | error e => rw [hpr] at hr; cases hr
  | ok pr =>
  rw [hpr] at hr h
  cases hr
  simp only at h
  cases hc : checkSidesM so (l ++ arrow ++ r) (describe 0 GL) (describe 1 GR) op (kw.map Prod.fst) with
  | error f =>
    rw [hc] at h
    cases h
    obtain ⟨m', h1, h2⟩ := checkSidesM_says hGL hGR (shape := shape) hc
    cases h1
    exact h2
  | ok _ =>
    rw [hc] at h
    simp only at h
    have hs : SidesOK op GL GR (kw.map Prod.fst) := by
      have hcs := erase_checkSidesM so (l ++ arrow ++ r) (describe 0 GL) (describe 1 GR) op (kw.map Prod.fst)
      rw [hc, checkSides_iff hGL hGR] at hcs
      by_contra hno
      rw [if_neg hno] at hcs
      cases hcs
    cases he : expandSidesM (describe 0 GL) (describe 1 GR) shape.length with
    | error f =>
      rw [he] at h
      cases h
      obtain ⟨m', h1, h2⟩ := expandSidesM_says hGL (pattern := l ++ arrow ++ r) hs he
      cases h1
      exact h2
    | ok ex =>
      rw [he] at h
      simp only at h
      have hes := erase_expandSidesM (describe 0 GL) (describe 1 GR) shape.length
      rw [he, expandSides_eq hGL hGR (sidesOK_ellipsis hs)] at hes
      cases hn : ellCount GL shape.length with
      | none => rw [hn] at hes; cases hes
      | some n =>
        rw [hn] at hes
        cases hes
        exact (buildRecipeM_says hGL hGR hs hn h).1

/-- **Messages of the preparation are true.** -/
theorem prepareRecipeM_says {so : SetOrder} {op : OpKind} {pattern : Str} (hell : '…' ∉ pattern) {kw : List (Str × Size)}
    {shape : List Nat} {m : Message}
    (h : prepareRecipeM so pattern op (kw.map Prod.fst) shape.length = .error (.einops m)) : m.Says op pattern kw shape := by
  cases hsp : splitArrow pattern with
  | error e => unfold prepareRecipeM at h; rw [hsp] at h; cases h
  | ok p =>
    obtain ⟨l, r⟩ := p
    have hall := splitArrow_iff.1 hsp
    have hell' := hell
    rw [hall.1] at hell'
    simp only [List.mem_append, not_or] at hell'
    have h0 := h
    unfold prepareRecipeM at h
    rw [hsp] at h
    simp only at h
    cases hpl : parseExpressionM 0 false false l with
    | error e =>
      rw [hpl] at h
      cases h
      exact ⟨l, r, hall.1, hall.2.1, hall.2.2, .inl (parseExpressionM_says hpl)⟩
    | ok pl =>
      rw [hpl] at h
      simp only at h
      have hl := erase_parseExpressionM 0 false false l
      rw [hpl] at hl
      obtain ⟨GL, hGL, rfl⟩ := (parseExpression_iff 0 false false l hell'.1.1 _).1 hl.symm
      cases hpr : parseExpressionM 1 false false r with
      | error e =>
        rw [hpr] at h
        cases h
        exact ⟨l, r, hall.1, hall.2.1, hall.2.2, .inr ⟨⟨GL, hGL⟩, parseExpressionM_says hpr⟩⟩
      | ok pr =>
        have hr := erase_parseExpressionM 1 false false r
        rw [hpr] at hr
        obtain ⟨GR, hGR, rfl⟩ := (parseExpression_iff 1 false false r hell'.2 _).1 hr.symm
        have hm := prepareRecipeM_saysOf hsp hell hGL hGR h0
        cases m <;> first | exact hm.elim | exact ⟨GL, GR, ⟨l, r, hall.1, hGL, hGR⟩, hm⟩

/-- **Messages about sizes are true.** -/
theorem reconstructM_says {so : SetOrder} {ex : Expanded} (wf : PlanWF ex) {kw : List (Str × Size)} (hkw : IntKw kw)
    (hn : namesOK ex (kw.map Prod.fst)) (hi : OneUnknown ex.left (kw.map Prod.fst)) {shape : List Nat} {m : Message}
    (h : reconstructM (recipeOf so ex (kw.map Prod.fst)) (shape.map Size.ofNat) kw = .error (.einops m)) :
    ∃ (g : List Axis) (l p : Int), BadDim kw ex.left shape g l p ∧
      (((∀ a ∈ g, isKnown (kw.map Prod.fst) a = true) ∧ m = .mismatch l p ∧ l ≠ p) ∨
        ((∃ a ∈ g, isKnown (kw.map Prod.fst) a = false) ∧ m = .notDivisible l p ∧ p ≠ 0 ∧ ¬ p ∣ l)) := by
  have hsubL : ∀ g ∈ ex.left, ∀ a ∈ g, a ∈ elementary so ex := fun g hg a ha =>
    (mem_elementary so ex).2 (.inl (List.mem_flatten.2 ⟨g, hg, ha⟩))
  unfold reconstructM at h
  have h0 : (recipeOf so ex (kw.map Prod.fst)).elementaryAxesLengths.map Size.ofInt =
      (elementary so ex).map (fun a => Size.ofInt (markedLength (kw.map Prod.fst) a)) := by
    simp [recipeOf, List.map_map, Function.comp_def]
  rw [h0, setDims_eq so ex wf _ kw hkw.nodup (by
    intro n hn'
    refine ⟨?_, ?_⟩
    · simp only [recipeOf]
      rw [dictGet_map (kw.map Prod.fst) (fun n => (elementary so ex).idxOf (.str n)), if_pos hn']
    · rw [mem_elementary]; exact (hn n hn').2)] at h
  simp only at h
  have hcomp : (recipeOf so ex (kw.map Prod.fst)).inputComposition.zipIdx =
      (ex.left.zipIdx 0).map (fun p => (kuOf so ex (kw.map Prod.fst) p.2 p.1, p.2)) := by
    simp only [recipeOf]
    apply List.ext_getElem?
    intro k
    simp only [List.getElem?_zipIdx, List.getElem?_map]
    cases ex.left[k]? <;> simp
  rw [hcomp] at h
  set F : Axis → Size := fun a => match a with
      | .str n => (dictGet kw n).getD (Size.ofInt (markedLength (kw.map Prod.fst) a))
      | .anon .. => Size.ofInt (markedLength (kw.map Prod.fst) a) with hFdef
  have hF : ∀ a s, knownSize kw a = some s → F a = s := by
    intro a s h
    cases a with
    | str n => simp only [knownSize] at h; simp [F, h]
    | anon sd ix v =>
      simp only [knownSize, Option.some.injEq] at h
      simp [F, ← h, markedLength, firstLength, Size.ofInt]
  split at h
  · rename_i hinf
    cases h
    obtain ⟨k, d, g, h1, h2, h3, h4⟩ := inferAllM_says so ex wf hkw shape ex.left 0 F hF false hsubL hi hinf
    simp only [Nat.zero_add] at h2 h3
    refine ⟨g, d, (knownProd kw g).val, ⟨k, d, h1, h2, rfl, (givenProduct_iff hkw).2 rfl, h3⟩, h4⟩
  · split at h
    · cases h
    · split at h <;> cases h

/-! ### exceptions of other kinds -/

/-- not an `EinopsError` without a message -/
def NoBare {β : Type u} (x : PyM β) : Prop := x ≠ .error (.other .einops)

theorem noBare_inferAxisM (st : List Size × Bool) (s : Size) (ku : List Nat × List Nat) : NoBare (inferAxisM st s ku) := by
  have hset : ∀ (l : List Size) k v, setE l k v ≠ .error .einops := by
    intro l k v h
    unfold setE at h
    split at h <;> cases h
  obtain ⟨ls, need⟩ := st
  obtain ⟨known, unknown⟩ := ku
  intro h
  unfold inferAxisM at h
  dsimp only at h
  split at h
  · split at h
    · rename_i hse
      cases h
      exact hset _ _ _ hse
    · cases h
  · split at h
    · rename_i hg
      cases h
      obtain ⟨a, _, ha⟩ := mapE_error_mem hg
      unfold getE at ha
      split at ha <;> cases ha
    · split at h
      · split at h <;> cases h
      · split at h
        · cases h
        · split at h
          · cases h
          · split at h
            · rename_i hse
              cases h
              exact hset _ _ _ hse
            · cases h

theorem noBare_inferAllM (shape : List Size) (l : List ((List Nat × List Nat) × Nat)) (st : List Size × Bool) :
    NoBare (inferAllM shape st l) := by
  induction l generalizing st with
  | nil => intro h; cases h
  | cons p l ih =>
    obtain ⟨ku, i⟩ := p
    unfold inferAllM
    cases hg : getE shape i with
    | error e =>
      intro h
      cases h
      unfold getE at hg
      split at hg <;> cases hg
    | ok s =>
      simp only
      cases hi : inferAxisM st s ku with
      | error e =>
        intro h
        cases h
        exact noBare_inferAxisM _ _ _ hi
      | ok st' => exact ih st'

theorem getE_quiet {β : Type} (l : List β) (k : Nat) : getE l k ≠ .error .einops := by
  intro h
  unfold getE at h
  split at h <;> cases h

theorem setDims_quiet (d : List (Str × Nat)) (kw : List (Str × Size)) (ls : List Size) : setDims d ls kw ≠ .error .einops := by
  induction kw generalizing ls with
  | nil => intro h; cases h
  | cons p kw ih =>
    obtain ⟨n, s⟩ := p
    intro h
    unfold setDims at h
    split at h
    · rename_i hd
      cases h
      unfold dictGetE at hd
      split at hd <;> cases hd
    · split at h
      · rename_i hse
        cases h
        unfold setE at hse
        split at hse <;> cases hse
      · exact ih _ h

theorem noBare_reconstructM (r : TransformRecipe) (shape : List Size) (kw : List (Str × Size)) :
    NoBare (reconstructM r shape kw) := by
  intro h
  unfold reconstructM at h
  split at h
  · rename_i hd
    cases h
    exact setDims_quiet _ _ _ hd
  · split at h
    · rename_i hi
      cases h
      exact noBare_inferAllM _ _ _ hi
    · split at h
      · rename_i hm
        cases h
        obtain ⟨g, _, hg⟩ := mapE_error_mem hm
        obtain ⟨a, _, ha⟩ := mapE_error_mem hg
        exact getE_quiet _ _ ha
      · split at h
        · rename_i hm
          cases h
          obtain ⟨p, _, hp⟩ := mapE_error_mem hm
          unfold addedSize at hp
          split at hp
          · rename_i hg
            cases hp
            exact getE_quiet _ _ hg
          · cases hp
        · cases h

theorem positionE_quiet (keys : List Axis) (a : Axis) : positionE keys a ≠ .error .einops := by
  intro h
  unfold positionE at h
  split at h <;> cases h

theorem noBare_markExpectedM (names : List Str) (d : List (Axis × Int)) : NoBare (markExpectedM d names) := by
  intro h
  obtain ⟨n, _, _, _, _, ⟨h1, _⟩ | ⟨h1, _⟩⟩ := markExpectedM_error h <;> cases h1

theorem noBare_knownUnknownM (so : SetOrder) (keys : List Axis) (d : List (Axis × Int)) (i : Nat) (g : List Axis) :
    NoBare (knownUnknownM so keys d i g) := by
  intro h
  unfold knownUnknownM at h
  split at h
  · rename_i hm
    cases h
    obtain ⟨a, _, ha⟩ := mapE_error_mem hm
    unfold dictGetE at ha
    split at ha <;> cases ha
  · dsimp only at h
    split at h
    · cases h
    · split at h
      · cases h
      · split at h
        · rename_i hm
          cases h
          obtain ⟨a, _, ha⟩ := mapE_error_mem hm
          exact positionE_quiet _ _ ha
        · split at h
          · rename_i hm
            cases h
            obtain ⟨a, _, ha⟩ := mapE_error_mem hm
            exact positionE_quiet _ _ ha
          · cases h

theorem noBare_buildRecipeM (so : SetOrder) (ex : Expanded) (names : List Str) : NoBare (buildRecipeM so ex names) := by
  intro h
  unfold buildRecipeM at h
  dsimp only at h
  split at h
  · rename_i hm
    cases h
    exact noBare_markExpectedM _ _ hm
  · split at h
    · rename_i hm
      cases h
      obtain ⟨p, _, hp⟩ := mapE_error_mem hm
      exact noBare_knownUnknownM _ _ _ _ _ hp
    · split at h
      · rename_i hm
        cases h
        obtain ⟨g, _, hg⟩ := mapE_error_mem hm
        obtain ⟨a, _, ha⟩ := mapE_error_mem hg
        exact positionE_quiet _ _ ha
      · split at h
        · rename_i hm
          cases h
          obtain ⟨a, _, ha⟩ := mapE_error_mem hm
          unfold indexE at ha
          split at ha <;> cases ha
        · split at h
          · rename_i hm
            cases h
            obtain ⟨a, _, ha⟩ := mapE_error_mem hm
            split at ha
            · rename_i hp
              cases ha
              exact positionE_quiet _ _ hp
            · cases ha
          · split at h
            · rename_i hm
              cases h
              obtain ⟨a, _, ha⟩ := mapE_error_mem hm
              split at ha
              · rename_i hp
                cases ha
                exact positionE_quiet _ _ hp
              · cases ha
            · cases h

theorem noBare_raiseFor {so : SetOrder} {l : List Axis} {m : List Axis → Message} {r : PyM Unit} (hr : NoBare r) :
    NoBare (raiseFor so l m r) := by
  intro h
  rcases raiseFor_error h with ⟨_, h1⟩ | ⟨_, h1⟩
  · cases h1
  · exact hr h1

theorem noBare_prepareRecipeM (so : SetOrder) (pattern : Str) (op : OpKind) (names : List Str) (ndim : Nat) :
    NoBare (prepareRecipeM so pattern op names ndim) := by
  have hok : NoBare (.ok () : PyM Unit) := by intro h; cases h
  intro h
  unfold prepareRecipeM at h
  split at h
  · rename_i hs
    cases h
    have := splitArrow_err hs
    cases this
  · split at h
    · cases h
    · split at h
      · cases h
      · split at h
        · rename_i hc
          cases h
          unfold checkSidesM at hc
          split at hc
          · cases hc
          · split at hc
            · cases hc
            · split at hc
              · split at hc
                · cases hc
                · exact noBare_raiseFor hok hc
              · split at hc
                · exact noBare_raiseFor (noBare_raiseFor hok) hc
                · split at hc
                  · exact noBare_raiseFor hok hc
                  · split at hc
                    · exact noBare_raiseFor hok hc
                    · cases hc
        · split at h
          · rename_i he
            cases h
            unfold expandSidesM at he
            split at he <;> split at he <;> cases he
          · exact noBare_buildRecipeM _ _ _ h

theorem NoBare.message {β : Type u} {x : PyM β} (h : NoBare x) (he : erase x = .error .einops) : ∃ m, x = .error (.einops m) := by
  cases x with
  | ok a => cases he
  | error f =>
    cases f with
    | einops m => exact ⟨m, rfl⟩
    | other e =>
      cases he
      exact absurd rfl h

/-! ### the order of sets -/

omit [PyUnicode] in
theorem raiseFor_same {so so' : SetOrder} {l : List Axis} {c : List Axis → Message} {r r' : PyM Unit}
    (hc : ∀ A B, A.Perm B → (c A).Same (c B))
    (hr : (r = .ok () ∧ r' = .ok ()) ∨ ∃ m m' : Message, r = .error (.einops m) ∧ r' = .error (.einops m') ∧ m.Same m') :
    (raiseFor so l c r = .ok () ∧ raiseFor so' l c r' = .ok ()) ∨
      ∃ m m' : Message, raiseFor so l c r = .error (.einops m) ∧ raiseFor so' l c r' = .error (.einops m') ∧ m.Same m' := by
  unfold raiseFor
  by_cases hl : l = []
  · rw [if_neg (not_not_intro hl), if_neg (not_not_intro hl)]
    exact hr
  · rw [if_pos hl, if_pos hl]
    exact .inr ⟨_, _, rfl, rfl, hc _ _ ((so.perm _ _).trans (so'.perm _ _).symm)⟩

omit [PyUnicode] in
theorem checkSidesM_same (so so' : SetOrder) (pattern : Str) (left rght : ParsedExpression) (op : OpKind) (names : List Str) :
    (checkSidesM so pattern left rght op names = .ok () ∧ checkSidesM so' pattern left rght op names = .ok ()) ∨
      ∃ m m' : Message, checkSidesM so pattern left rght op names = .error (.einops m) ∧
        checkSidesM so' pattern left rght op names = .error (.einops m') ∧ m.Same m' := by
  unfold checkSidesM
  split
  · exact .inr ⟨_, _, rfl, rfl, .refl _⟩
  · split
    · exact .inr ⟨_, _, rfl, rfl, .refl _⟩
    · split
      · split
        · exact .inr ⟨_, _, rfl, rfl, .refl _⟩
        · exact raiseFor_same (fun _ _ h => .oneSide h) (.inl ⟨rfl, rfl⟩)
      · split
        · exact raiseFor_same (fun _ _ h => .leftOfRepeat h)
            (raiseFor_same (fun _ _ h => .withoutSize h) (.inl ⟨rfl, rfl⟩))
        · split
          · exact raiseFor_same (fun _ _ h => .rightOfReduce h) (.inl ⟨rfl, rfl⟩)
          · split
            · exact raiseFor_same (fun _ _ h => .rightOfReduce h) (.inl ⟨rfl, rfl⟩)
            · exact .inr ⟨_, _, rfl, rfl, .refl _⟩

omit [PyUnicode] in
theorem first_unique {β : Type} {P : β → Prop} {b b' a a' : List β} {n n' : β} (h : b ++ n :: a = b' ++ n' :: a')
    (hb : ∀ k ∈ b, P k) (hn : ¬ P n) (hb' : ∀ k ∈ b', P k) (hn' : ¬ P n') : n = n' := by
  induction b generalizing b' with
  | nil =>
    cases b' with
    | nil => exact (List.cons.inj h).1
    | cons c b' =>
      obtain ⟨rfl, _⟩ := List.cons.inj h
      exact absurd (hb' _ (by simp)) hn
  | cons c b ih =>
    cases b' with
    | nil =>
      obtain ⟨rfl, _⟩ := List.cons.inj h
      exact absurd (hb _ (by simp)) hn'
    | cons c' b' =>
      obtain ⟨rfl, h2⟩ := List.cons.inj h
      exact ih h2 (fun k hk => hb k (by simp [hk])) (fun k hk => hb' k (by simp [hk]))

theorem BadName.not_name {n : Str} (h : BadName n) : ¬ IsName false n := by
  rintro ⟨_, h1, h2 | ⟨h2, _⟩⟩
  · rcases h with h | h | h
    · exact h h1
    · exact h2.1 h
    · exact h2.2 h
  · cases h2

omit [PyUnicode] in
theorem Lists.perm {A B : List Axis} {P : Axis → Prop} (h : Lists A P) (h' : Lists B P) : A.Perm B :=
  (List.perm_ext_iff_of_nodup h.2.1 h'.2.1).2 (fun a => (h.2.2 a).trans (h'.2.2 a).symm)

omit [PyUnicode] in
theorem Lists.unknown {A : List Axis} {g : List Axis} {names : List Str} (h : Lists A (fun a => a ∈ g ∧ isKnown names a = false))
    (h2 : 2 ≤ A.length) : ¬ (g.filter (fun a => !isKnown names a)).length ≤ 1 := by
  have : A.length ≤ (g.filter (fun a => !isKnown names a)).length := by
    apply List.Subperm.length_le
    apply List.subperm_of_subset h.2.1
    intro a ha
    rw [List.mem_filter, Bool.not_eq_true']
    exact (h.2.2 a).1 ha
  omega

include hL hR in
theorem buildRecipeM_same {so so' : SetOrder} {op : OpKind} {kw : List (Str × Size)} {shape : List Nat} {n : Nat}
    {m m' : Message} (hs : SidesOK op GL GR (kw.map Prod.fst)) (hn : ellCount GL shape.length = some n)
    (h : buildRecipeM so (exOf GL GR n) (kw.map Prod.fst) = .error (.einops m))
    (h' : buildRecipeM so' (exOf GL GR n) (kw.map Prod.fst) = .error (.einops m')) : m.Same m' := by
  obtain ⟨h1, h2⟩ := buildRecipeM_says hL hR (pattern := []) hs hn h
  obtain ⟨h1', h2'⟩ := buildRecipeM_says hL hR (pattern := []) hs hn h'
  have hno : ∀ {k : Str}, (k ∉ sideWords GL ∧ k ∉ sideWords GR) → ¬ (IsName false k ∧ k ∈ sideWords GL ++ sideWords GR) := by
    rintro k ⟨h3, h4⟩ ⟨_, h5⟩
    rcases List.mem_append.1 h5 with h5 | h5
    · exact h3 h5
    · exact h4 h5
  have hkw : ∀ {k : Str} {before after : List Str}, kw.map Prod.fst = before ++ k :: after → KeywordsUsed GL GR (kw.map Prod.fst) →
      (IsName false k ∧ k ∈ sideWords GL ++ sideWords GR) := by
    intro k before after h3 h4
    exact h4 k (by rw [h3]; simp)
  rcases h2 with ⟨k, rfl⟩ | ⟨k, rfl⟩ | ⟨A, rfl⟩ <;> rcases h2' with ⟨k', rfl⟩ | ⟨k', rfl⟩ | ⟨A', rfl⟩
  · obtain ⟨_, _, ⟨_, _, h3, h4⟩, h5⟩ := h1
    obtain ⟨_, _, ⟨_, _, h3', h4'⟩, h5'⟩ := h1'
    obtain rfl := first_unique (h3.symm.trans h3') h4 (fun h => h5.not_name h.1) h4' (fun h => h5'.not_name h.1)
    exact .refl _
  · obtain ⟨_, _, ⟨_, _, h3, h4⟩, h5⟩ := h1
    obtain ⟨_, _, ⟨_, _, h3', h4'⟩, h5', h6'⟩ := h1'
    obtain rfl := first_unique (h3.symm.trans h3') h4 (fun h => h5.not_name h.1) h4' (hno h6')
    exact absurd h5 h5'
  · obtain ⟨_, _, ⟨_, _, h3, h4⟩, h5⟩ := h1
    exact absurd (hkw h3 h1'.2.1).1 h5.not_name
  · obtain ⟨_, _, ⟨_, _, h3, h4⟩, h5⟩ := h1'
    obtain ⟨_, _, ⟨_, _, h3', h4'⟩, h5', h6'⟩ := h1
    obtain rfl := first_unique (h3.symm.trans h3') h4 (fun h => h5.not_name h.1) h4' (hno h6')
    exact absurd h5 h5'
  · obtain ⟨_, _, ⟨_, _, h3, h4⟩, _, h5⟩ := h1
    obtain ⟨_, _, ⟨_, _, h3', h4'⟩, _, h5'⟩ := h1'
    obtain rfl := first_unique (h3.symm.trans h3') h4 (hno h5) h4' (hno h5')
    exact .refl _
  · obtain ⟨_, _, ⟨_, _, h3, h4⟩, _, h5⟩ := h1
    exact absurd (hkw h3 h1'.2.1) (hno h5)
  · obtain ⟨_, _, ⟨_, _, h3, h4⟩, h5⟩ := h1'
    exact absurd (hkw h3 h1.2.1).1 h5.not_name
  · obtain ⟨_, _, ⟨_, _, h3, h4⟩, _, h5⟩ := h1'
    exact absurd (hkw h3 h1.2.1) (hno h5)
  · obtain ⟨_, _, h3, ⟨L, R, b, g, a, h4, rfl, h5, h6⟩, _⟩ := h1
    obtain ⟨_, _, h3', ⟨L', R', b', g', a', h4', rfl, h5', h6'⟩, _⟩ := h1'
    have hE := sidesOK_ellipsis hs
    obtain ⟨n1, e1, e2, _⟩ := (groups_iff hL hE shape.length _ _).1 h4
    obtain ⟨n2, e3, e4, _⟩ := (groups_iff hL hE shape.length _ _).1 h4'
    rw [e1] at e3
    cases e3
    obtain rfl := first_unique (e2.trans e4.symm) h5 (h6.unknown h3) h5' (h6'.unknown h3')
    exact .cannotInfer (h6.perm h6')

/-- The message of the preparation does not depend on the order of sets, but for the order of the axes it lists. -/
theorem prepareRecipeM_same {so so' : SetOrder} {op : OpKind} {pattern : Str} (hell : '…' ∉ pattern) {kw : List (Str × Size)}
    {shape : List Nat} {m m' : Message}
    (h : prepareRecipeM so pattern op (kw.map Prod.fst) shape.length = .error (.einops m))
    (h' : prepareRecipeM so' pattern op (kw.map Prod.fst) shape.length = .error (.einops m')) : m.Same m' := by
  unfold prepareRecipeM at h h'
  cases hsp : splitArrow pattern with
  | error e => rw [hsp] at h; cases h
  | ok p =>
    obtain ⟨l, r⟩ := p
    obtain ⟨rfl, ha1, ha2⟩ := splitArrow_iff.1 hsp
    rw [hsp] at h h'
    simp only [List.mem_append, not_or] at hell
    simp only at h h'
    cases hpl : parseExpressionM 0 false false l with
    | error e =>
      rw [hpl] at h h'
      cases h
      cases h'
      exact .refl _
    | ok pl =>
      rw [hpl] at h h'
      simp only at h h'
      have hl := erase_parseExpressionM 0 false false l
      rw [hpl] at hl
      obtain ⟨GL, hGL, rfl⟩ := (parseExpression_iff 0 false false l hell.1.1 _).1 hl.symm
      cases hpr : parseExpressionM 1 false false r with
      | error e =>
        rw [hpr] at h h'
        cases h
        cases h'
        exact .refl _
      | ok pr =>
        rw [hpr] at h h'
        simp only at h h'
        have hr := erase_parseExpressionM 1 false false r
        rw [hpr] at hr
        obtain ⟨GR, hGR, rfl⟩ := (parseExpression_iff 1 false false r hell.2 _).1 hr.symm
        rcases checkSidesM_same so so' (l ++ arrow ++ r) (describe 0 GL) (describe 1 GR) op (kw.map Prod.fst) with
          ⟨hc, hc'⟩ | ⟨m1, m2, hc, hc', hm⟩
        · rw [hc] at h
          rw [hc'] at h'
          simp only at h h'
          have hs : SidesOK op GL GR (kw.map Prod.fst) := by
            have hcs := erase_checkSidesM so (l ++ arrow ++ r) (describe 0 GL) (describe 1 GR) op (kw.map Prod.fst)
            rw [hc, checkSides_iff hGL hGR] at hcs
            by_contra hno
            rw [if_neg hno] at hcs
            cases hcs
          cases he : expandSidesM (describe 0 GL) (describe 1 GR) shape.length with
          | error f =>
            rw [he] at h h'
            cases h
            cases h'
            exact .refl _
          | ok ex =>
            rw [he] at h h'
            simp only at h h'
            have hes := erase_expandSidesM (describe 0 GL) (describe 1 GR) shape.length
            rw [he, expandSides_eq hGL hGR (sidesOK_ellipsis hs)] at hes
            cases hn : ellCount GL shape.length with
            | none => rw [hn] at hes; cases hes
            | some n =>
              rw [hn] at hes
              cases hes
              exact buildRecipeM_same hGL hGR hs hn h h'
        · rw [hc] at h
          rw [hc'] at h'
          cases h
          cases h'
          exact hm

omit [PyUnicode] in
theorem BadDim.unique {kw : List (Str × Size)} (hkw : IntKw kw) {L : List (List Axis)} {shape : List Nat} {g g' : List Axis}
    {l p l' p' : Int} (h : BadDim kw L shape g l p) (h' : BadDim kw L shape g' l' p')
    (hn : ∀ d : Nat, l = d → ¬ Agrees kw g d) (hn' : ∀ d : Nat, l' = d → ¬ Agrees kw g' d) : g = g' ∧ l = l' ∧ p = p' := by
  obtain ⟨k, d, h1, h2, rfl, h3, h4⟩ := h
  obtain ⟨k', d', h1', h2', rfl, h3', h4'⟩ := h'
  rcases Nat.lt_trichotomy k k' with hk | rfl | hk
  · exact absurd (h4' k hk g d h1 h2) (hn d rfl)
  · rw [h1] at h1'
    rw [h2] at h2'
    cases h1'
    cases h2'
    exact ⟨rfl, rfl, ((givenProduct_iff hkw).1 h3).trans ((givenProduct_iff hkw).1 h3').symm⟩
  · exact absurd (h4 k' hk g' d' h1' h2') (hn' d' rfl)

theorem reconstructM_same {so so' : SetOrder} {ex : Expanded} (wf : PlanWF ex) {kw : List (Str × Size)} (hkw : IntKw kw)
    (hn : namesOK ex (kw.map Prod.fst)) (hi : OneUnknown ex.left (kw.map Prod.fst)) {shape : List Nat} {m m' : Message}
    (h : reconstructM (recipeOf so ex (kw.map Prod.fst)) (shape.map Size.ofNat) kw = .error (.einops m))
    (h' : reconstructM (recipeOf so' ex (kw.map Prod.fst)) (shape.map Size.ofNat) kw = .error (.einops m')) : m = m' := by
  have key : ∀ {g : List Axis} {l p : Int} {m : Message}, BadDim kw ex.left shape g l p →
      (((∀ a ∈ g, isKnown (kw.map Prod.fst) a = true) ∧ m = .mismatch l p ∧ l ≠ p) ∨
        ((∃ a ∈ g, isKnown (kw.map Prod.fst) a = false) ∧ m = .notDivisible l p ∧ p ≠ 0 ∧ ¬ p ∣ l)) →
      ∀ d : Nat, l = d → ¬ Agrees kw g d := by
    rintro g l p m ⟨_, _, _, _, _, h3, _⟩ hc d rfl ⟨p', h4, h5, h6⟩
    obtain rfl : p = p' := ((givenProduct_iff hkw).1 h3).trans ((givenProduct_iff hkw).1 h4).symm
    rcases hc with ⟨h7, _, h8⟩ | ⟨h7, _, _, h8⟩
    · exact h8 (h5 h7).symm
    · exact h8 (h6 h7).2
  obtain ⟨g, l, p, hb, hc⟩ := reconstructM_says wf hkw hn hi h
  obtain ⟨g', l', p', hb', hc'⟩ := reconstructM_says wf hkw hn hi h'
  obtain ⟨rfl, rfl, rfl⟩ := hb.unique hkw hb' (key hb hc) (key hb' hc')
  rcases hc with ⟨h1, rfl, _⟩ | ⟨⟨a, ha, h1⟩, rfl, _⟩ <;> rcases hc' with ⟨h2, rfl, _⟩ | ⟨⟨a', ha', h2⟩, rfl, _⟩
  · rfl
  · rw [h1 a' ha'] at h2
    cases h2
  · rw [h2 a ha] at h1
    cases h1
  · rfl

end

end Einops
