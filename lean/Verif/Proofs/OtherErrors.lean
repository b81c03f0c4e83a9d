import Verif.OtherErrors
import Verif.Proofs.Einsum
import Verif.Proofs.Unpacking

/-!
# Lemmas on the exceptions of `einsum` and `pack`
-/

namespace Einops

universe u

/-! ### `einsum` -/

theorem einsumLeft_append (m : List (Str × Char)) (i : Nat) (a b : List CompAxis) :
    einsumLeft m i (a ++ b) =
      match einsumLeft m i a with
      | .error e => .error e
      | .ok (s, m, i) =>
        match einsumLeft m i b with
        | .error e => .error e
        | .ok (t, m, i) => .ok (s ++ t, m, i) := by
  induction a generalizing m i with
  | nil =>
    simp only [List.nil_append, einsumLeft]
    rcases einsumLeft m i b with e | ⟨t, m, i⟩ <;> rfl
  | cons c a ih =>
    simp only [List.cons_append, einsumLeft]
    rcases einsumLeftStep m i c with e | ⟨s, m, i⟩
    · rfl
    · simp only [ih]
      rcases einsumLeft m i a with e | ⟨s, m, i⟩
      · rfl
      · simp only
        rcases einsumLeft m i b with e | ⟨t, m, i⟩
        · rfl
        · simp

/-- the loop over the inputs goes as over one list of axes -/
theorem einsumLefts_flat (m : List (Str × Char)) (i : Nat) (ps : List ParsedExpression) :
    (∀ e, einsumLeft m i (ps.flatMap ParsedExpression.composition) = .error e → einsumLefts m i ps = .error e) ∧
    (∀ s m' i', einsumLeft m i (ps.flatMap ParsedExpression.composition) = .ok (s, m', i') →
      ∃ ss, einsumLefts m i ps = .ok (ss, m')) := by
  induction ps generalizing m i with
  | nil =>
    refine ⟨fun e h => ?_, fun s m' i' h => ?_⟩
    · cases h
    · simp only [List.flatMap_nil, einsumLeft, Except.ok.injEq, Prod.mk.injEq] at h
      exact ⟨[], by rw [einsumLefts, h.2.1]⟩
  | cons p ps ih =>
    rw [List.flatMap_cons, einsumLeft_append]
    simp only [einsumLefts]
    rcases einsumLeft m i p.composition with e | ⟨s, m, i⟩
    · simp
    · obtain ⟨h1, h2⟩ := ih m i
      simp only
      rcases hb : einsumLeft m i (ps.flatMap ParsedExpression.composition) with e | ⟨t, m', i'⟩
      · simp only
        refine ⟨fun e' h => ?_, fun s m' i' h => by cases h⟩
        cases h
        rw [h1 e hb]
      · simp only
        refine ⟨fun e' h => (by cases h), fun s m'' i'' h => ?_⟩
        simp only [Except.ok.injEq, Prod.mk.injEq] at h
        obtain ⟨ss, hss⟩ := h2 t m' i' hb
        exact ⟨_, by rw [hss, ← h.2.1]⟩

section
variable [PyUnicode]

/-- what the code sees of an element -/
def Seen (e : Elem) (c : CompAxis) : Prop :=
  (∀ t, readElem e = some t → c = symComp t) ∧
  (readElem e = none → ∃ g, c = .group g ∧ einsumAxisName g = .error .notImplemented)

theorem seen_denote (side k : Nat) (G : List Elem) : List.Forall₂ Seen G (denote side k G) := by
  induction G generalizing k with
  | nil => exact .nil
  | cons e G ih =>
    obtain ⟨j, hj⟩ := denote_elem side k e G
    rw [hj]
    cases he : readElem e with
    | none =>
      obtain ⟨g, hg, hge⟩ := readElem_none (side := side) (k := k) he
      rw [hg]
      refine .cons ⟨fun t h => ?_, fun _ => ⟨g, rfl, hge⟩⟩ (ih j)
      rw [he] at h
      cases h
    | some a =>
      rw [readElem_some he]
      refine .cons ⟨fun t h => ?_, fun h => ?_⟩ (ih j)
      · rw [he] at h
        cases h
        rfl
      · rw [he] at h
        cases h

theorem seen_flat (Gs : List (List Elem)) : List.Forall₂ Seen Gs.flatten (Gs.flatMap (denote 0 0)) := by
  induction Gs with
  | nil => exact .nil
  | cons G Gs ih => exact List.rel_append (seen_denote 0 0 G) ih

theorem seen_syms {A : List Elem} {C : List CompAxis} (h : List.Forall₂ Seen A C) {t : List ESym}
    (ht : A.map readElem = t.map some) : C = t.map symComp := by
  induction h generalizing t with
  | nil =>
    cases t with
    | nil => rfl
    | cons => simp at ht
  | cons h1 _ ih =>
    cases t with
    | nil => simp at ht
    | cons a t =>
      simp only [List.map_cons, List.cons.injEq] at ht ⊢
      exact ⟨h1.1 a ht.1, ih ht.2⟩

omit [PyUnicode] in
theorem forall₂_split {X Y : Type*} {R : X → Y → Prop} {a b : List X} {c : List Y} (h : List.Forall₂ R (a ++ b) c) :
    ∃ c₁ c₂, c = c₁ ++ c₂ ∧ List.Forall₂ R a c₁ ∧ List.Forall₂ R b c₂ := by
  induction a generalizing c with
  | nil => exact ⟨[], c, rfl, .nil, h⟩
  | cons x a ih =>
    cases h with
    | cons h1 h2 =>
      obtain ⟨c₁, c₂, rfl, h3, h4⟩ := ih h2
      exact ⟨_ :: c₁, c₂, rfl, .cons h1 h3, h4⟩

theorem elemNames_flatten (Gs : List (List Elem)) : elemNames Gs.flatten = Gs.flatMap elemNames := by
  induction Gs with
  | nil => rfl
  | cons G Gs ih => rw [List.flatten_cons, elemNames_append, ih, List.flatMap_cons]

/-- every trouble is reported by its exception -/
theorem einsumTrouble_error {A B : List Elem} {C D : List CompAxis} {ps : List ParsedExpression}
    (hps : ps.flatMap ParsedExpression.composition = C) (hA : List.Forall₂ Seen A C) (hB : List.Forall₂ Seen B D)
    (wA : ∀ w ∈ elemNames A, w ≠ []) (wB : ∀ w ∈ elemNames B, w ≠ []) {e : PyErr} (h : EinsumTrouble A B e) :
    (match einsumLefts [] 0 ps with
      | .error e => (.error e : Py Str)
      | .ok (ss, m) =>
        match einsumRight m D with
        | .error e => .error e
        | .ok t => .ok (List.intercalate [','] ss ++ ['-', '>'] ++ t)) = .error e := by
  subst hps
  have nil52 : ([] : List Str).length ≤ 52 := by simp
  cases h with
  | input A₁ e A₂ t hA' h1 h2 h3 =>
    subst hA'
    obtain ⟨C₁, C₂, hC, f1, f2⟩ := forall₂_split hA
    cases f2 with
    | @cons _ _ _ C₃ g1 g2 =>
      obtain ⟨g, rfl, hg⟩ := g1.2 h3
      rw [seen_syms f1 h1] at hC
      have hl := einsumLeft_syms nil52 (t := t) (fun w hw => wA w (by
        rw [elemNames_append, elemNames_read h1]; simp [hw])) (.group g :: C₃)
      rw [← hC, grow_length, if_pos h2, show letterDict [] = [] from rfl, List.length_nil] at hl
      simp only [einsumLeft, einsumLeftStep, hg] at hl
      rw [(einsumLefts_flat _ _ ps).1 _ hl]
  | letters A₁ A₂ t hA' h1 h2 =>
    subst hA'
    obtain ⟨C₁, C₂, hC, f1, f2⟩ := forall₂_split hA
    rw [seen_syms f1 h1] at hC
    have hl := einsumLeft_syms nil52 (t := t) (fun w hw => wA w (by
      rw [elemNames_append, elemNames_read h1]; simp [hw])) C₂
    rw [← hC, grow_length, if_neg (by omega), show letterDict [] = [] from rfl, List.length_nil] at hl
    rw [(einsumLefts_flat _ _ ps).1 _ hl]
  | output t u B₁ e B₂ h1 h2 hB' h3 h4 h5 =>
    subst hB'
    have hl := einsumLeft_syms nil52 (t := t) (fun w hw => wA w (by rw [elemNames_read h1]; exact hw)) []
    rw [List.append_nil, ← seen_syms hA h1, grow_length, if_pos h2] at hl
    simp only [einsumLeft] at hl
    obtain ⟨ss, hss⟩ := (einsumLefts_flat _ _ ps).2 _ _ _ hl
    rw [show letterDict [] = [] from rfl, List.length_nil] at hss
    rw [hss]
    obtain ⟨D₁, D₂, rfl, f1, f2⟩ := forall₂_split hB
    cases f2 with
    | cons g1 g2 =>
      obtain ⟨g, rfl, hg⟩ := g1.2 h5
      rw [seen_syms f1 h3]
      have : ∀ u : List ESym, (∀ w ∈ symNames u, w ∈ symNames t) → (∀ w ∈ symNames u, w ≠ []) → ∀ D,
          einsumRight (letterDict (grow [] (symNames t))) (u.map symComp ++ .group g :: D) = .error .notImplemented := by
        intro u hu hn D
        induction u with
        | nil => simp only [List.map_nil, List.nil_append, einsumRight, hg]
        | cons a u ih =>
          cases a with
          | ell => simp only [List.map_cons, List.cons_append, symComp, einsumRight]; rw [ih hu hn]
          | name w =>
            simp only [List.map_cons, List.cons_append, symComp, einsumRight, einsumAxisName,
              if_neg (hn w (by simp [symNames])), dictGet_letter (K := grow [] (symNames t)) (by rw [grow_length]; exact h2),
              if_pos (mem_grow.2 (.inr (hu w (by simp [symNames]))))]
            rw [ih (fun v hv => hu v (by simp [symNames, hv])) (fun v hv => hn v (by simp [symNames, hv]))]
      simp only [this u h4 (fun w hw => wB w (by rw [elemNames_append, elemNames_read h3]; simp [hw]))]
  | unknown t u B₁ e B₂ v h1 h2 hB' h3 h4 h5 h6 =>
    subst hB'
    have hl := einsumLeft_syms nil52 (t := t) (fun w hw => wA w (by rw [elemNames_read h1]; exact hw)) []
    rw [List.append_nil, ← seen_syms hA h1, grow_length, if_pos h2] at hl
    simp only [einsumLeft] at hl
    obtain ⟨ss, hss⟩ := (einsumLefts_flat _ _ ps).2 _ _ _ hl
    rw [show letterDict [] = [] from rfl, List.length_nil] at hss
    rw [hss]
    obtain ⟨D₁, D₂, rfl, f1, f2⟩ := forall₂_split hB
    cases f2 with
    | cons g1 g2 =>
      obtain rfl := g1.1 _ h5
      have hv : v ≠ [] := wB v (by
        rw [elemNames_append, show e :: B₂ = [e] ++ B₂ from rfl, elemNames_append,
          elemNames_read (G := [e]) (t := [.name v]) (by simp [h5])]
        simp [symNames])
      rw [seen_syms f1 h3]
      have : ∀ u : List ESym, (∀ w ∈ symNames u, w ∈ symNames t) → (∀ w ∈ symNames u, w ≠ []) → ∀ D,
          einsumRight (letterDict (grow [] (symNames t))) (u.map symComp ++ symComp (.name v) :: D) = .error .einops := by
        intro u hu hn D
        induction u with
        | nil =>
          simp only [List.map_nil, List.nil_append, symComp, einsumRight, einsumAxisName, if_neg hv,
            dictGet_letter (K := grow [] (symNames t)) (by rw [grow_length]; exact h2)]
          rw [if_neg (by rw [mem_grow]; simpa using h6)]
        | cons a u ih =>
          cases a with
          | ell => simp only [List.map_cons, List.cons_append, symComp, einsumRight] at ih ⊢; rw [ih hu hn]
          | name w =>
            have := ih (fun v hv => hu v (by simp [symNames, hv])) (fun v hv => hn v (by simp [symNames, hv]))
            simp only [List.map_cons, List.cons_append, symComp, einsumRight, einsumAxisName,
              if_neg (hn w (by simp [symNames])), dictGet_letter (K := grow [] (symNames t)) (by rw [grow_length]; exact h2),
              if_pos (mem_grow.2 (.inr (hu w (by simp [symNames]))))] at this ⊢
            rw [this]
      simp only [this u h4 (fun w hw => wB w (by rw [elemNames_append, elemNames_read h3]; simp [hw]))]

/-- without trouble everything can be read -/
theorem einsumTrouble_or (A B : List Elem) : (∃ e, EinsumTrouble A B e) ∨
    ∃ t u : List ESym, A.map readElem = t.map some ∧ B.map readElem = u.map some ∧ distinct (symNames t) ≤ 52 ∧
      ∀ w ∈ symNames u, w ∈ symNames t := by
  rcases readable_or A with ⟨t, ht⟩ | ⟨A₁, e, A₂, t, rfl, ht, he⟩
  · by_cases h52 : distinct (symNames t) ≤ 52
    · have : ∀ B₁ B₂ (u : List ESym), B = B₁ ++ B₂ → B₁.map readElem = u.map some → (∀ w ∈ symNames u, w ∈ symNames t) →
          (∃ e, EinsumTrouble A B e) ∨ ∃ u : List ESym, B.map readElem = u.map some ∧ ∀ w ∈ symNames u, w ∈ symNames t := by
        intro B₁ B₂
        induction B₂ generalizing B₁ with
        | nil =>
          intro u hB hu h
          rw [List.append_nil] at hB
          exact .inr ⟨u, by rw [hB]; exact hu, h⟩
        | cons e B₂ ih =>
          intro u hB hu h
          cases he : readElem e with
          | none => exact .inl ⟨_, .output t u B₁ e B₂ ht h52 hB hu h he⟩
          | some a =>
            cases a with
            | ell =>
              exact ih (B₁ ++ [e]) (u ++ [.ell]) (by simp [hB]) (by simp [hu, he]) (by
                intro w hw
                rw [symNames_append] at hw
                simp only [symNames, List.append_nil] at hw
                exact h w hw)
            | name w =>
              by_cases hw : w ∈ symNames t
              · exact ih (B₁ ++ [e]) (u ++ [.name w]) (by simp [hB]) (by simp [hu, he]) (by
                  intro v hv
                  rw [symNames_append] at hv
                  simp only [symNames, List.mem_append, List.mem_singleton] at hv
                  rcases hv with hv | rfl
                  · exact h v hv
                  · exact hw)
              · exact .inl ⟨_, .unknown t u B₁ e B₂ w ht h52 hB hu h he hw⟩
      rcases this [] B [] rfl rfl (by simp [symNames]) with h | ⟨u, hu, h⟩
      · exact .inl h
      · exact .inr ⟨t, u, ht, hu, h52, h⟩
    · exact .inl ⟨_, .letters A [] t (by simp) ht (by omega)⟩
  · by_cases h52 : distinct (symNames t) ≤ 52
    · exact .inl ⟨_, .input A₁ e A₂ t rfl ht h52 he⟩
    · exact .inl ⟨_, .letters A₁ (e :: A₂) t rfl ht (by omega)⟩

/-- a readable list of inputs, read input by input -/
theorem read_parts {Gs : List (List Elem)} {t : List ESym} (h : Gs.flatten.map readElem = t.map some) :
    ∃ terms : List (List ESym), List.Forall₂ (fun (G : List Elem) t => G.map readElem = t.map some) Gs terms ∧ terms.flatten = t := by
  induction Gs generalizing t with
  | nil =>
    cases t with
    | nil => exact ⟨[], .nil, rfl⟩
    | cons => simp at h
  | cons G Gs ih =>
    rw [List.flatten_cons, List.map_append] at h
    have h' := h.symm
    rw [List.map_eq_append_iff] at h'
    obtain ⟨t₁, t₂, rfl, h1, h2⟩ := h'
    obtain ⟨terms, h3, rfl⟩ := ih h2.symm
    exact ⟨t₁ :: terms, .cons h1.symm h3, rfl⟩

theorem compositions_flat {ps : List ParsedExpression} {Gs : List (List Elem)}
    (h : List.Forall₂ (fun (p : ParsedExpression) (G : List Elem) => p.composition = denote 0 0 G) ps Gs) :
    ps.flatMap ParsedExpression.composition = Gs.flatMap (denote 0 0) := by
  induction h with
  | nil => rfl
  | cons a b ih => rw [List.flatMap_cons, List.flatMap_cons, a, ih]

/-- the exceptions for a well formed pattern -/
theorem compactify_trouble {pattern : Str} {Gs : List (List Elem)} {G : List Elem} (h : EinsumSides pattern Gs G) (e : PyErr) :
    compactify pattern = .error e ↔ EinsumTrouble Gs.flatten G e := by
  obtain ⟨ps, p, hps, hp, hc⟩ := compactify_sides h
  obtain ⟨parts, r, hne, hpat, hl, hr⟩ := h.written
  have hw : ∀ w ∈ elemNames Gs.flatten, w ≠ [] := by
    intro w hw
    rw [elemNames_flatten] at hw
    obtain ⟨G, hG, hw⟩ := List.mem_flatMap.1 hw
    obtain ⟨i, hi, rfl⟩ := List.getElem_of_mem hG
    exact read_ne_nil (hl.get (by rw [hl.length_eq]; exact hi) hi) hw
  have hfl := compositions_flat hps
  have key : ∀ {e}, EinsumTrouble Gs.flatten G e → compactify pattern = .error e := by
    intro e he
    rw [hc, hp]
    exact einsumTrouble_error hfl (seen_flat Gs) (seen_denote 1 0 G) hw (fun w hw => read_ne_nil hr hw) he
  refine ⟨fun he => ?_, key⟩
  rcases einsumTrouble_or Gs.flatten G with ⟨e', h'⟩ | ⟨t, u, h1, h2, h3, h4⟩
  · rw [key h'] at he
    cases he
    exact h'
  · obtain ⟨terms, h5, rfl⟩ := read_parts h1
    have hfm : terms.flatMap symNames = symNames terms.flatten := by
      clear h1 h3 h4 h5
      induction terms with
      | nil => rfl
      | cons t terms ih => rw [List.flatten_cons, symNames_append, List.flatMap_cons, ih]
    rw [compactify_syms ⟨Gs, G, h, h5, h2⟩, hfm, if_pos h3, if_pos] at he
    · cases he
    · intro w hw
      have := h4 w hw
      rw [← hfm] at this
      obtain ⟨t, ht, h⟩ := List.mem_flatMap.1 this
      exact ⟨t, ht, h⟩

end

/-! ### `pack` -/

variable {α : Type u}

theorem reshape_err {x : Tensor α} {s : List Int} {e : PyErr} (h : x.reshape s = .error e) : e = .backend := by
  unfold Tensor.reshape resolveShape at h
  simp only at h
  split at h
  · rename_i e' h'
    split at h'
    · cases h'
    · split at h'
      · cases h'; cases h; rfl
      · cases h'
    · cases h'; cases h; rfl
  · unfold Tensor.withShape at h
    split at h
    · cases h
    · cases h; rfl

theorem packable_or (before after : Nat) (s : List Nat) : s.length < before + after ∨
    ∃ pre r post, s = pre ++ r ++ post ∧ pre.length = before ∧ post.length = after := by
  by_cases h : s.length < before + after
  · exact .inl h
  · refine .inr ⟨s.take before, (s.take (s.length - after)).drop before, s.drop (s.length - after), ?_, by simp; omega, by simp; omega⟩
    conv_lhs => rw [← List.take_append_drop (s.length - after) s, ← List.take_append_drop before (s.take (s.length - after))]
    rw [List.take_take, Nat.min_eq_left (by omega)]

/-- the loop on packable tensors goes through -/
theorem packLoop_packable {ops : PackOps α} (ho : PackModelled ops) {b a : Nat} {xs : List (Tensor α)}
    (h : ∀ x ∈ xs, PackableShape b a x.shape) (rest : List (Tensor α)) :
    ∃ zs ps, packLoop ops b a (b + a) (xs ++ rest) =
      match packLoop ops b a (b + a) rest with
      | .error e => .error e
      | .ok (zs', ps') => .ok (zs ++ zs', ps ++ ps') := by
  induction xs with
  | nil =>
    refine ⟨[], [], ?_⟩
    simp only [List.nil_append]
    rcases packLoop ops b a (b + a) rest with e | ⟨z, p⟩ <;> rfl
  | cons x xs ih =>
    obtain ⟨zs, ps, ih⟩ := ih (fun x hx => h x (by simp [hx]))
    obtain ⟨pre, r, post, h1, rfl, rfl, h0, h0'⟩ := h x (by simp)
    obtain ⟨zs₁, e1, -, e3⟩ := packLoop_ok ho ⟨h0, h0'⟩ (xs := [x]) (rs := [r]) (.cons h1 .nil)
    simp only [packLoop] at e1
    simp only [List.cons_append, packLoop, ih]
    have hl : ¬ x.shape.length < pre.length + post.length := by rw [h1]; simp
    rw [if_neg hl] at e1 ⊢
    cases hr : ops.reshape x ((x.shape.take pre.length).map Int.ofNat ++ (-1) ::
        (x.shape.drop (x.shape.length - post.length)).map Int.ofNat) with
    | error e => rw [hr] at e1; cases e1
    | ok y =>
      refine ⟨y :: zs, (x.shape.take (x.shape.length - post.length)).drop pre.length :: ps, ?_⟩
      simp only
      rcases packLoop ops pre.length post.length (pre.length + post.length) rest with e | ⟨z, p⟩ <;> rfl

theorem packableShape_parts {b a : Nat} {pre r post : List Nat} (hb : pre.length = b) (ha : post.length = a)
    (h : PackableShape b a (pre ++ r ++ post)) : 0 ∉ pre ∧ 0 ∉ post := by
  obtain ⟨pre', r', post', e, hb', ha', h1, h2⟩ := h
  have hl := congrArg List.length e
  simp only [List.length_append] at hl
  obtain ⟨e1, rfl⟩ := List.append_inj' e (by omega)
  obtain ⟨rfl, -⟩ := List.append_inj e1 (by omega)
  exact ⟨h1, h2⟩

section
variable [PyUnicode]

/-- every trouble with the shapes is reported by its exception -/
theorem packTrouble_error {ops : PackOps α} (ho : PackModelled ops) {pattern : Str} {b a : Nat} (hp : IsPackPattern pattern b a)
    {xs : List (Tensor α)} {e : PyErr} (h : PackTrouble b a (xs.map Tensor.shape) e) : pack ops xs pattern = .error e := by
  unfold pack
  rw [analyzePattern_iff.2 ⟨hp, rfl⟩]
  cases h with
  | rank S₁ s S₂ h1 h2 h3 =>
    obtain ⟨X₁, X₂', rfl, rfl, h4⟩ := List.map_eq_append_iff.1 h1
    obtain ⟨x, X₂, rfl, rfl, rfl⟩ := List.map_eq_cons_iff.1 h4
    obtain ⟨zs, ps, hl⟩ := packLoop_packable ho (xs := X₁) (fun x hx => h2 _ (List.mem_map_of_mem hx)) (x :: X₂)
    simp only [packLoop, if_pos h3] at hl
    cases hX : X₁ ++ x :: X₂ with
    | nil => simp at hX
    | cons y ys => rw [hX] at hl; simp only [hl]
  | zero S₁ pre r post S₂ h1 h2 h3 h4 h5 =>
    obtain ⟨X₁, X₂', rfl, rfl, h6⟩ := List.map_eq_append_iff.1 h1
    obtain ⟨x, X₂, rfl, hx, rfl⟩ := List.map_eq_cons_iff.1 h6
    obtain ⟨zs, ps, hl⟩ := packLoop_packable ho (xs := X₁) (fun x hx => h2 _ (List.mem_map_of_mem hx)) (x :: X₂)
    subst h3 h4
    obtain ⟨p1, p2, p3⟩ := three_parts hx
    have hr : ops.reshape x ((x.shape.take pre.length).map Int.ofNat ++ (-1) ::
        (x.shape.drop (x.shape.length - post.length)).map Int.ofNat) = .error .backend := by
      rw [p1, p2, ho.reshape (ge_pre_post pre post)]
      cases hz : x.reshape (pre.map Int.ofNat ++ -1 :: post.map Int.ofNat) with
      | error e => rw [reshape_err hz]
      | ok z =>
        obtain ⟨t, -, -, hz0, -⟩ := (reshape_iff (ge_pre_post pre post)).1 hz
        exact absurd ((zero_pre_post pre post).2 h5) (hz0 (by simp))
    simp only [packLoop, if_neg (show ¬ x.shape.length < pre.length + post.length by rw [hx]; simp), hr] at hl
    cases hX : X₁ ++ x :: X₂ with
    | nil => simp at hX
    | cons y ys => rw [hX] at hl; simp only [hl]
  | differ pre r post pre' r' post' h1 h2 h3 h4 h5 h6 h7 h8 =>
    obtain ⟨zs, ps, hl⟩ := packLoop_packable ho (xs := xs) (fun x hx => h1 _ (List.mem_map_of_mem hx)) []
    rw [List.append_nil] at hl
    simp only [packLoop, List.append_nil] at hl
    have hsh := packLoop_shapes ho hl
    have hpart : ∀ {p q s : List Nat}, p ++ q ++ s ∈ xs.map Tensor.shape → p.length = b → s.length = a →
        ∃ z ∈ zs, z.shape.set b 0 = p ++ 0 :: s := by
      intro p q s hm hpb hsa
      obtain ⟨x, hx, hxs⟩ := List.mem_map.1 hm
      obtain ⟨k, hk⟩ := List.getElem?_of_mem hx
      have hlt : k < zs.length := by rw [← hsh.length_eq]; exact (List.getElem?_eq_some_iff.1 hk).1
      obtain ⟨p', q', s', n, g1, g2, g3, g4, -, -⟩ := forall₂_get hsh k hk (b := zs[k]) (by simp [hlt])
      rw [hxs] at g1
      have hlen := congrArg List.length g1
      simp only [List.length_append] at hlen
      obtain ⟨e1, rfl⟩ := List.append_inj' g1 (by omega)
      obtain ⟨rfl, -⟩ := List.append_inj e1 (by omega)
      refine ⟨_, List.getElem_mem hlt, ?_⟩
      rw [g4, ← hpb, set_mid]
    obtain ⟨z, hz, hzs⟩ := hpart h2 h4 h5
    obtain ⟨z', hz', hzs'⟩ := hpart h3 h6 h7
    have hne : z.shape.set b 0 ≠ z'.shape.set b 0 := by
      rw [hzs, hzs']
      intro he
      obtain ⟨rfl, he'⟩ := List.append_inj he (by omega)
      simp only [List.cons.injEq, true_and] at he'
      exact h8 (by rw [he'])
    have hc : ops.concat zs b = .error .backend := by
      rw [ho.concat]
      unfold Tensor.concat
      cases zs with
      | nil => rfl
      | cons z₀ zs =>
        simp only
        rw [if_neg]
        rintro ⟨-, hall⟩
        have : ∀ y ∈ z₀ :: zs, y.shape.set b 0 = z₀.shape.set b 0 := by
          intro y hy
          rcases List.mem_cons.1 hy with rfl | hy
          · rfl
          · exact (hall y hy).2
        exact hne ((this z hz).trans (this z' hz').symm)
    cases xs with
    | nil => simp at h2
    | cons x xs => simp only [hl, hc]

/-- packable shapes that agree around the star, or trouble -/
theorem packTrouble_or (b a : Nat) (S : List (List Nat)) : (∃ e, PackTrouble b a S e) ∨
    (∀ s ∈ S, PackableShape b a s) ∧ ∀ pre r post pre' r' post', pre ++ r ++ post ∈ S → pre' ++ r' ++ post' ∈ S →
      pre.length = b → post.length = a → pre'.length = b → post'.length = a → (pre, post) = (pre', post') := by
  have : ∀ S₂ S₁ : List (List Nat), S = S₁ ++ S₂ → (∀ s ∈ S₁, PackableShape b a s) →
      (∃ e, PackTrouble b a S e) ∨ ∀ s ∈ S, PackableShape b a s := by
    intro S₂
    induction S₂ with
    | nil => intro S₁ h h1; rw [List.append_nil] at h; exact .inr (by rw [h]; exact h1)
    | cons s S₂ ih =>
      intro S₁ h h1
      rcases packable_or b a s with hs | ⟨pre, r, post, rfl, hb, ha⟩
      · exact .inl ⟨_, .rank S₁ s S₂ h h1 hs⟩
      · by_cases h0 : 0 ∈ pre ∨ 0 ∈ post
        · exact .inl ⟨_, .zero S₁ pre r post S₂ h h1 hb ha h0⟩
        · rw [not_or] at h0
          refine ih (S₁ ++ [pre ++ r ++ post]) (by simp [h]) (fun s hs => ?_)
          rcases List.mem_append.1 hs with hs | hs
          · exact h1 s hs
          · rw [List.mem_singleton] at hs
            exact ⟨pre, r, post, hs, hb, ha, h0.1, h0.2⟩
  rcases this S [] rfl (by simp) with h | h
  · exact .inl h
  · by_cases hd : ∃ e, PackTrouble b a S e
    · exact .inl hd
    · refine .inr ⟨h, fun pre r post pre' r' post' h1 h2 h3 h4 h5 h6 => ?_⟩
      by_contra hc
      exact hd ⟨_, .differ pre r post pre' r' post' h h1 h2 h3 h4 h5 h6 hc⟩

/-- the exceptions of `pack` for a legal pattern and at least one tensor -/
theorem pack_trouble {ops : PackOps α} (ho : PackModelled ops) {pattern : Str} {b a : Nat} (hp : IsPackPattern pattern b a)
    {xs : List (Tensor α)} (hne : xs ≠ []) (e : PyErr) :
    pack ops xs pattern = .error e ↔ PackTrouble b a (xs.map Tensor.shape) e := by
  refine ⟨fun h => ?_, packTrouble_error ho hp⟩
  rcases packTrouble_or b a (xs.map Tensor.shape) with ⟨e', h'⟩ | ⟨h1, h2⟩
  · rw [packTrouble_error ho hp h'] at h
    cases h
    exact h'
  · cases xs with
    | nil => exact absurd rfl hne
    | cons x xs =>
      obtain ⟨pre, r, post, hx, hb, ha, h0, h0'⟩ := h1 x.shape (by simp)
      have hall : ∀ x' ∈ x :: xs, ∃ r, x'.shape = pre ++ r ++ post := by
        intro x' hx'
        obtain ⟨pre', r', post', hx'', hb', ha', -, -⟩ := h1 x'.shape (List.mem_map_of_mem hx')
        have := h2 pre r post pre' r' post' (by rw [← hx]; simp) (by rw [← hx'']; exact List.mem_map_of_mem hx') hb ha hb' ha'
        simp only [Prod.mk.injEq] at this
        exact ⟨r', by rw [hx'', this.1, this.2]⟩
      obtain ⟨rs, hrs⟩ : ∃ rs, List.Forall₂ (fun (x : Tensor α) r => x.shape = pre ++ r ++ post) (x :: xs) rs := by
        generalize x :: xs = ys at hall
        induction ys with
        | nil => exact ⟨[], .nil⟩
        | cons y ys ih =>
          obtain ⟨r, hr⟩ := hall y (by simp)
          obtain ⟨rs, hrs⟩ := ih (fun x hx => hall x (by simp [hx]))
          exact ⟨r :: rs, .cons hr hrs⟩
      obtain ⟨y, hy, -⟩ := pack_exists ho (by rw [hb, ha]; exact hp) ⟨h0, h0'⟩ (by simp) hrs
      rw [hy] at h
      cases h

end

end Einops
