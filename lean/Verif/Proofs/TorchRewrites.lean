import Verif.TorchPrograms
import Verif.Props.Documented

/-!
# Proofs about rewritten programs

A call of `rearrange` in terms of three operations, and facts about operations of PyTorch.
-/

namespace Einops

universe u
variable {α : Type u}

/-- change the shape, permute the dimensions, change the shape -/
def byHand (x : Tensor α) (s p t : List Nat) : Py (Tensor α) :=
  (x.withShape s).bind fun y => (y.transpose p).bind fun z => z.withShape t

/-- the part of a side that stands for a group of names -/
def toElem : List Str → Elem
  | [w] => .bare w
  | ws => .paren ws

variable [PyUnicode]

theorem toElem_names {g : List Str} (hg : ∀ w ∈ g, IsName false w) : (toElem g).names = g := by
  have : (toElem g).words = g := by
    unfold toElem
    split <;> rfl
  unfold Elem.names
  rw [this, List.filter_eq_self]
  intro w hw
  simpa using isName_not_number false (hg w hw)

theorem toElem_words (g : List Str) : (toElem g).words = g := by
  unfold toElem
  split <;> rfl

theorem toElem_flatMap {A : List (List Str)} (hA : ∀ w ∈ A.flatten, IsName false w) :
    (A.map toElem).flatMap Elem.names = A.flatten := by
  induction A with
  | nil => rfl
  | cons g A ih =>
    rw [List.map_cons, List.flatMap_cons, ih fun w hw => hA w (by simp at hw ⊢; tauto), toElem_names fun w hw => hA w (by simp [hw])]
    rfl

theorem toElem_sideWords (A : List (List Str)) : sideWords (A.map toElem) = A.flatten := by
  induction A with
  | nil => rfl
  | cons g A ih => rw [List.map_cons, words_cons, ih, toElem_words]; rfl

theorem toElem_size {A : List (List Str)} (hA : ∀ w ∈ A.flatten, IsName false w) (val : Str → Nat) :
    (A.map toElem).map (Elem.size val) = A.map fun g => (g.map val).prod := by
  rw [List.map_map]
  refine List.map_congr_left fun g hg => ?_
  show (((toElem g).names).map val).prod = _
  rw [toElem_names fun w hw => hA w (List.mem_flatten.2 ⟨g, hg, hw⟩)]

/-- number of places of a group of names -/
def span (val : Str → Nat) : List Str → Nat
  | [] => 1
  | w :: g => g.foldl (fun acc w => acc * val w) (val w)

/-- place of the coordinates `c` in a group of names -/
def place (val c : Str → Nat) : List Str → Nat
  | [] => 0
  | w :: g => g.foldl (fun acc w => acc * val w + c w) (c w)

/-- the value of a name, from a list of names and a list of values -/
def look (ns : List Str) (vs : List Nat) (w : Str) : Nat := vs.getD (ns.idxOf w) 0

omit [PyUnicode] in
theorem span_eq (val : Str → Nat) (g : List Str) : span val g = (g.map val).prod := by
  cases g with
  | nil => rfl
  | cons w g =>
    have : ∀ (g : List Str) (a : Nat), g.foldl (fun acc w => acc * val w) a = a * (g.map val).prod := by
      intro g
      induction g with
      | nil => simp
      | cons v g ih => intro a; rw [List.foldl_cons, ih]; simp [Nat.mul_assoc]
    rw [span, this]
    simp

omit [PyUnicode] in
theorem place_eq (val c : Str → Nat) (g : List Str) : place val c g = g.foldl (fun acc w => acc * val w + c w) 0 := by
  cases g with
  | nil => rfl
  | cons w g => simp [place]

omit [PyUnicode] in
theorem look_map {ns : List Str} (hn : ns.Nodup) {vs : List Nat} (h : vs.length = ns.length) : ns.map (look ns vs) = vs := by
  apply List.ext_getElem (by simp [h])
  intro k h1 h2
  simp only [List.length_map] at h1
  simp [look, hn.idxOf_getElem k h1, h2]

/-- A call of `rearrange` with names only: the names in the dimensions of the input and of the output, the given sizes, and
the length of every name. -/
structure Named (q : Str) (A B : List (List Str)) (kw : List (Str × Size)) (val : Str → Nat) (s : List Nat) : Prop where
  pattern : IsPattern q (A.map toElem) (B.map toElem)
  names : ∀ w ∈ A.flatten, IsName false w
  same : ∀ w, w ∈ A.flatten ↔ w ∈ B.flatten
  ints : IntKw kw
  used : ∀ n ∈ kw.map Prod.fst, n ∈ A.flatten
  lengths : s = A.map (span val)
  given : ∀ p ∈ kw, (val p.1 : Int) = p.2.val
  one : ∀ g ∈ A, (g.filter fun w => decide (w ∉ kw.map Prod.fst)).length ≤ 1
  determined : ∀ g ∈ A, (∃ w ∈ g, w ∉ kw.map Prod.fst) → ∀ w ∈ g, w ∈ kw.map Prod.fst → val w ≠ 0

/-- names and lengths given by lists; `pos` are names with lengths that must not be 0 -/
theorem Named.of {q : Str} {A B : List (List Str)} {kw : List (Str × Size)} (ns : List Str) (vs : List Nat) (ks pos : List Str)
    {s : List Nat} (h1 : @IsPattern asciiUnicode q (A.map toElem) (B.map toElem))
    (h2 : ∀ w ∈ A.flatten, @IsName asciiUnicode false w) (h3 : ∀ w ∈ A.flatten, w ∈ B.flatten) (h3' : ∀ w ∈ B.flatten, w ∈ A.flatten)
    (h4 : ks.Nodup) (h5 : ∀ w ∈ ks, w ∈ A.flatten)
    (h6 : ∀ g ∈ A, (g.filter fun w => decide (w ∉ ks)).length ≤ 1)
    (h7 : ∀ g ∈ A, (∃ w ∈ g, w ∉ ks) → ∀ w ∈ g, w ∈ ks → w ∈ pos)
    (hkw : kw = ks.map fun w => (w, ⟨(look ns vs w : Nat), true⟩)) (hs : s = A.map (span (look ns vs)))
    (hpos : ∀ w ∈ pos, look ns vs w ≠ 0) : Named q A B kw (look ns vs) s := by
  have hk : kw.map Prod.fst = ks := by rw [hkw, List.map_map]; exact List.map_id _
  refine ⟨isPattern_ascii h1, fun w hw => isName_ascii (h2 w hw), fun w => ⟨h3 w, h3' w⟩, ⟨?_, ?_⟩, ?_, hs, ?_, ?_, ?_⟩
  · rw [hk]; exact h4
  · intro p hp
    rw [hkw] at hp
    obtain ⟨w, _, rfl⟩ := List.mem_map.1 hp
    rfl
  · rw [hk]; exact h5
  · intro p hp
    rw [hkw] at hp
    obtain ⟨w, _, rfl⟩ := List.mem_map.1 hp
    rfl
  · rw [hk]; exact h6
  · rw [hk]
    exact fun g hg h w hw hwk => hpos w (h7 g hg h w hw hwk)

theorem Named.on {q : Str} {A B : List (List Str)} {kw : List (Str × Size)} {val : Str → Nat} {s s' : List Nat}
    (h : Named q A B kw val s) (hs : s' = s) : Named q A B kw val s' := by rw [hs]; exact h

theorem Named.plain {q : Str} {A B : List (List Str)} {kw : List (Str × Size)} {val : Str → Nat} {s : List Nat}
    (h : Named q A B kw val s) : (∀ w ∈ B.flatten, IsName false w) ∧ A.flatten.Nodup ∧ B.flatten.Nodup := by
  have hB : ∀ w ∈ B.flatten, IsName false w := fun w hw => h.names w ((h.same w).2 hw)
  obtain ⟨l, r, _, hl, hr⟩ := h.pattern
  refine ⟨hB, ?_, ?_⟩
  · have := plain_nodup hl (fun w hw => .inl (h.names w (by rwa [toElem_sideWords] at hw)))
    rwa [toElem_flatMap h.names] at this
  · have := plain_nodup hr (fun w hw => .inl (hB w (by rwa [toElem_sideWords] at hw)))
    rwa [toElem_flatMap hB] at this

theorem Named.accepted {q : Str} {A B : List (List Str)} {kw : List (Str × Size)} {val : Str → Nat} {s : List Nat}
    (h : Named q A B kw val s) :
    Accepted (.name "rearrange".toList) q kw s (A.map toElem) (B.map toElem) (A.map (List.map Axis.str)) (B.map (List.map Axis.str))
      (ofNames val) := by
  have hB := h.plain.1
  have hg : ∀ {A : List (List Str)}, (∀ w ∈ A.flatten, IsName false w) → plainGroups (A.map toElem) = A.map (List.map Axis.str) := by
    intro A hA
    rw [plainGroups, List.map_map]
    refine List.map_congr_left fun g hg => ?_
    simp only [Function.comp]
    rw [toElem_names fun w hw => hA w (List.mem_flatten.2 ⟨g, hg, hw⟩)]
  have hnm : ∀ {A : List (List Str)}, (∀ w ∈ A.flatten, IsName false w) → ∀ e ∈ A.map toElem, ∃ g ∈ A, e.names = g := by
    intro A hA e he
    obtain ⟨g, hg, rfl⟩ := List.mem_map.1 he
    exact ⟨g, hg, toElem_names fun w hw => hA w (List.mem_flatten.2 ⟨g, hg, hw⟩)⟩
  rw [← hg h.names, ← hg hB]
  refine plain_accepted (fun w hw => .inl (h.names w (by rwa [toElem_sideWords] at hw)))
    (fun w hw => .inl (hB w (by rwa [toElem_sideWords] at hw))) h.pattern
    (.inl ⟨rfl, fun w => by rw [toElem_flatMap h.names, toElem_flatMap hB]; exact h.same w⟩)
    (fun n hn => List.mem_append_left _ (by rw [toElem_flatMap h.names]; exact h.used n hn))
    (by rw [toElem_size h.names, h.lengths]; exact List.map_congr_left fun g _ => span_eq val g) h.given ?_ ?_
  · intro e he
    obtain ⟨g, hg, hge⟩ := hnm h.names e he
    rw [hge]
    exact h.one g hg
  · intro e he
    obtain ⟨g, hg, hge⟩ := hnm h.names e he
    rw [hge]
    exact h.determined g hg

theorem Named.sub {q : Str} {A B : List (List Str)} {kw : List (Str × Size)} {val : Str → Nat} {s : List Nat}
    (h : Named q A B kw val s) : ∀ a ∈ (A.map (List.map Axis.str)).flatten, a ∈ (B.map (List.map Axis.str)).flatten := by
  intro a ha
  rw [← List.map_flatten] at ha ⊢
  obtain ⟨w, hw, rfl⟩ := List.mem_map.1 ha
  exact List.mem_map_of_mem ((h.same w).1 hw)

omit [PyUnicode] in
theorem span_groups (val : Str → Nat) (A : List (List Str)) :
    (A.map (List.map Axis.str)).map (groupSize (ofNames val)) = A.map (span val) := by
  rw [List.map_map]
  refine List.map_congr_left fun g _ => ?_
  rw [span_eq]
  simp [groupSize, Function.comp_def, ofNames]

omit [PyUnicode] in
theorem place_groups (val c : Str → Nat) (A : List (List Str)) :
    (A.map (List.map Axis.str)).map (groupPos (ofNames val) (ofNames c)) = A.map (place val c) := by
  rw [List.map_map]
  refine List.map_congr_left fun g _ => ?_
  rw [place_eq]
  simp [groupPos, List.foldl_map, ofNames]

/-- the elements of the result -/
theorem Named.moves {E : ElemOps α} {b : Backend α} (hb : Modelled E b) {q : Str} {A B : List (List Str)}
    {kw : List (Str × Size)} {val : Str → Nat} {x : Tensor α} (h : Named q A B kw val x.shape) :
    ∃ y, (∀ so, rearrange b so (.one x) q kw = .ok y) ∧ y.shape = B.map (span val) ∧
      ∀ c : Str → Nat, (∀ w ∈ B.flatten, c w < val w) → y.at? (B.map (place val c)) = x.at? (A.map (place val c)) := by
  obtain ⟨y, h1, h2, h3⟩ := h.accepted.moves (red := .name "rearrange".toList) hb.lawful h.ints h.sub
  refine ⟨y, h1, by rw [h2, span_groups], fun c hc => ?_⟩
  obtain ⟨v, h4, h5⟩ := h3 (ofNames c) (by
    rw [← List.map_flatten, ← List.map_flatten]
    intro a ha
    rcases List.mem_append.1 ha with ha | ha
    · obtain ⟨w, hw, rfl⟩ := List.mem_map.1 ha
      exact hc w ((h.same w).1 hw)
    · obtain ⟨w, hw, rfl⟩ := List.mem_map.1 ha
      exact hc w hw)
  unfold Tensor.atAxes at h4 h5
  rw [place_groups] at h4 h5
  rw [h4, h5]

/-- the three operations that make the same result -/
theorem Named.by_hand {E : ElemOps α} {b : Backend α} (hb : Modelled E b) {q : Str} {A B : List (List Str)}
    {kw : List (Str × Size)} {val : Str → Nat} {x : Tensor α} (h : Named q A B kw val x.shape) (so : SetOrder) :
    rearrange b so (.one x) q kw = byHand x (A.flatten.map val) (B.flatten.map A.flatten.idxOf) (B.map (span val)) := by
  obtain ⟨y, h1, hm⟩ := h.accepted.moves (red := .name "rearrange".toList) hb.lawful h.ints h.sub
  obtain ⟨-, nA, nB⟩ := h.plain
  have e1 : rearrange b so (.one x) q kw = .ok y := h1 so
  rw [e1]
  have nA' : (A.map (List.map Axis.str)).flatten.Nodup := by
    rw [← List.map_flatten]; exact nA.map fun _ _ h => by cases h; rfl
  have nB' : (B.map (List.map Axis.str)).flatten.Nodup := by
    rw [← List.map_flatten]; exact nB.map fun _ _ h => by cases h; rfl
  have hv : ∀ A : List (List Str), (A.map (List.map Axis.str)).flatten.map (ofNames val) = A.flatten.map val := by
    intro A
    rw [← List.map_flatten, List.map_map]; rfl
  have hp : ∀ A : List (List Str), (A.flatten.map val).prod = (A.map (span val)).prod := by
    intro A
    rw [← span_groups, ← groupSize_flatten, ← hv]
    rfl
  obtain ⟨t, t1, t2, t3⟩ := x.withShape_ok (s := A.flatten.map val) (by rw [h.lengths, hp])
  obtain ⟨z, z1, z2, z3⟩ := transpose_axes (len := ofNames val) nA' nB' (t := t) (fun a => by
    rw [← List.map_flatten, ← List.map_flatten]
    simp only [List.mem_map]
    exact ⟨fun ⟨w, hw, he⟩ => ⟨w, (h.same w).2 hw, he⟩, fun ⟨w, hw, he⟩ => ⟨w, (h.same w).1 hw, he⟩⟩) (by rw [t2, hv])
  have hidx : (B.map (List.map Axis.str)).flatten.map (A.map (List.map Axis.str)).flatten.idxOf = B.flatten.map A.flatten.idxOf := by
    rw [← List.map_flatten, ← List.map_flatten, List.map_map]
    refine List.map_congr_left fun w hw => ?_
    have hw' := (h.same w).2 hw
    obtain ⟨k, hk, rfl⟩ := List.getElem_of_mem hw'
    have := (nA.map fun _ _ h => by cases h; rfl : (A.flatten.map Axis.str).Nodup).idxOf_getElem k (by rw [List.length_map]; exact hk)
    rw [List.getElem_map] at this
    simp only [Function.comp]
    rw [this, nA.idxOf_getElem k hk]
  rw [hidx] at z1
  obtain ⟨u, u1, u2, u3⟩ := z.withShape_ok (s := B.map (span val)) (by rw [z2, hv, hp])
  rw [byHand, t1]
  simp only [Except.bind]
  rw [z1]
  simp only [Except.bind]
  rw [u1]
  congr 1
  refine hm.unique nB' h.sub ⟨by rw [u2, span_groups], fun env henv => ?_⟩
  have hrA : InRange (ofNames val) (A.map (List.map Axis.str)).flatten env := fun a ha => henv a (List.mem_append_left _ ha)
  have hrB : InRange (ofNames val) (B.map (List.map Axis.str)).flatten env := fun a ha => henv a (List.mem_append_right _ ha)
  have s1 := at_split (t := t) (x := x) (by rw [h.lengths, span_groups]) (by rw [t2, hv]) t3 hrA
  have s2 := at_split (t := z) (x := u) (by rw [u2, span_groups]) z2 u3.symm hrB
  rw [← s1, ← s2, z3 env hrA]
  have hin : inBounds ((A.map (List.map Axis.str)).flatten.map env) t.shape = true := by
    rw [t2, ← hv]; exact inBounds_map.2 hrA
  obtain ⟨v, hv'⟩ := t.at?_isSome hin
  exact ⟨v, hv', hv'⟩

/-- the lengths in a call that succeeds -/
theorem named_lengths {E : ElemOps α} {b : Backend α} (hb : Modelled E b) {q : Str} {A B : List (List Str)}
    (h1 : @IsPattern asciiUnicode q (A.map toElem) (B.map toElem)) (h2 : ∀ w ∈ A.flatten, @IsName asciiUnicode false w)
    {kw : List (Str × Size)} (hkw : IntKw kw) {x y : Tensor α} {so : SetOrder} (h : rearrange b so (.one x) q kw = .ok y) :
    ∃ val, x.shape = A.map (span val) ∧ ∀ p ∈ kw, (val p.1 : Int) = p.2.val := by
  have hq := isPattern_ascii h1
  obtain ⟨GL, GR, L, R, len, ha, -⟩ :=
    (move_iff hb.lawful so (isPattern_split hq).1 hkw (.inl rfl) (fun h => by cases h) y).1 h
  obtain ⟨rfl, rfl⟩ := isPattern_unique hq ha.pattern
  have hn : ∀ w ∈ A.flatten, IsName false w := fun w hw => isName_ascii (h2 w hw)
  refine ⟨fun w => len (.str w), ?_, fun p hp => ha.fits.kw_eq p.1 p.2 hp⟩
  obtain ⟨n, -, hL, -, -⟩ := ha.prepared.groups
  rw [spread_plain _ _ _ (fun w hw => .inl (hn w (by rwa [toElem_sideWords] at hw)))] at hL
  rw [ha.fits.shape_eq, hL, plainGroups, List.map_map, List.map_map]
  refine List.map_congr_left fun g hg => ?_
  simp only [Function.comp]
  rw [toElem_names fun w hw => hn w (List.mem_flatten.2 ⟨g, hg, hw⟩), span_eq]
  simp [groupSize, Function.comp_def]

/-! ### Operations of PyTorch -/

omit [PyUnicode] in
theorem bind_ok_iff {β γ : Type u} {e : Py β} {f : β → Py γ} {y : γ} : e.bind f = .ok y ↔ ∃ z, e = .ok z ∧ f z = .ok y :=
  ⟨bind_ok, fun ⟨z, h1, h2⟩ => by rw [h1]; exact h2⟩

omit [PyUnicode] in
theorem view_nat (x : Tensor α) (s : List Nat) : x.view (s.map Int.ofNat) = x.withShape s := reshape_nonneg x s

omit [PyUnicode] in
theorem forall₂_parts {β γ : Type*} {R : β → γ → Prop} {a b : List β} {r : List γ} (h : List.Forall₂ R (a ++ b) r) :
    ∃ r1 r2, List.Forall₂ R a r1 ∧ List.Forall₂ R b r2 ∧ r = r1 ++ r2 := by
  induction a generalizing r with
  | nil => exact ⟨[], r, .nil, h, rfl⟩
  | cons x a ih =>
    cases h with
    | cons h1 h2 =>
      obtain ⟨r1, r2, h3, h4, rfl⟩ := ih h2
      exact ⟨_ :: r1, r2, .cons h1 h3, h4, rfl⟩

omit [PyUnicode] in
/-- one length to be found -/
theorem view_infer {x y : Tensor α} (s t : List Nat) :
    x.view (s.map Int.ofNat ++ -1 :: t.map Int.ofNat) = .ok y ↔
      0 ∉ s ++ t ∧ ∃ n, x.withShape (s ++ n :: t) = .ok y := by
  have hnn : ∀ s : List Nat, ∀ d ∈ s.map Int.ofNat, (0 : Int) ≤ d := by
    intro s d hd
    obtain ⟨n, _, rfl⟩ := List.mem_map.1 hd
    exact Int.natCast_nonneg n
  have hc : ∀ s : List Nat, (s.map Int.ofNat).count (-1) = 0 := fun s =>
    List.count_eq_zero.2 fun h => by have := hnn s _ h; omega
  have hf : ∀ (s r : List Nat), Fills (s.map Int.ofNat) r ↔ r = s := by
    intro s
    induction s with
    | nil => intro r; constructor
             · intro h; cases h; rfl
             · rintro rfl; exact .nil
    | cons d s ih =>
      intro r
      constructor
      · intro h
        cases h with
        | cons h1 h2 =>
          rw [(ih _).1 h2]
          have : ((d : Nat) : Int) ≠ -1 := by omega
          rcases h1 with h1 | h1
          · have : d = _ := Int.ofNat.inj h1
            rw [this]
          · exact absurd h1 this
      · rintro rfl
        exact .cons (.inl rfl) ((ih _).2 rfl)
  unfold Tensor.view
  rw [reshape_iff (by
    intro d hd
    rcases List.mem_append.1 hd with hd | hd
    · have := hnn s d hd; omega
    · rcases List.mem_cons.1 hd with rfl | hd
      · exact le_refl _
      · have := hnn t d hd; omega)]
  have h0 : ∀ s : List Nat, (0 : Int) ∈ s.map Int.ofNat ↔ 0 ∈ s := by
    intro s
    simp
  constructor
  · rintro ⟨r, h1, h2, h3, h4⟩
    refine ⟨?_, ?_⟩
    · have := h3 (by simp)
      simp only [List.mem_append, List.mem_cons, h0, not_or] at this ⊢
      exact ⟨this.1, this.2.2⟩
    · obtain ⟨r1, r2, h5, h6, rfl⟩ := forall₂_parts h1
      cases h6 with
      | cons h7 h8 =>
        rw [(hf _ _).1 h5, (hf _ _).1 h8] at h4
        exact ⟨_, h4⟩
  · rintro ⟨h1, n, h2⟩
    refine ⟨s ++ n :: t, List.rel_append ((hf _ _).2 rfl) (.cons (.inr rfl) ((hf _ _).2 rfl)), ?_, ?_, h2⟩
    · rw [List.count_append, List.count_cons, hc, hc]; simp
    · intro _
      simp only [List.mem_append, List.mem_cons, h0, not_or] at h1 ⊢
      exact ⟨h1.1, by decide, h1.2⟩

omit [PyUnicode] in
theorem transpose_shape {x z : Tensor α} {p : List Nat} (h : x.transpose p = .ok z) : z.shape = p.map (nth x.shape) := by
  unfold Tensor.transpose at h
  split at h
  · exact (Tensor.build_ok h).1
  · cases h

omit [PyUnicode] in
theorem intKw_two {r s : Str} (h : r ≠ s) (c d : Nat) : IntKw [(r, Size.mk (c : Int) true), (s, Size.mk (d : Int) true)] :=
  ⟨by simpa using h, by simp⟩

/-! ### Elements of tensors with few dimensions -/

omit [PyUnicode] in
theorem inBounds_two {A B : Nat} {i : List Nat} : inBounds i [A, B] = true ↔ ∃ a b, i = [a, b] ∧ a < A ∧ b < B := by
  match i with
  | [] => simp [inBounds]
  | [a] => simp [inBounds]
  | [a, b] => simp [inBounds]
  | a :: b :: c :: i => simp [inBounds]

omit [PyUnicode] in
theorem inBounds_three {A B C : Nat} {i : List Nat} :
    inBounds i [A, B, C] = true ↔ ∃ a b c, i = [a, b, c] ∧ a < A ∧ b < B ∧ c < C := by
  match i with
  | [] => simp [inBounds]
  | [a] => simp [inBounds]
  | [a, b] => simp [inBounds]
  | [a, b, c] => simp [inBounds]
  | a :: b :: c :: d :: i => simp [inBounds]

omit [PyUnicode] in
theorem inBounds_four {A B C D : Nat} {i : List Nat} :
    inBounds i [A, B, C, D] = true ↔ ∃ a b c d, i = [a, b, c, d] ∧ a < A ∧ b < B ∧ c < C ∧ d < D := by
  match i with
  | [] => simp [inBounds]
  | [a] => simp [inBounds]
  | [a, b] => simp [inBounds]
  | [a, b, c] => simp [inBounds]
  | [a, b, c, d] => simp [inBounds]
  | a :: b :: c :: d :: e :: i => simp [inBounds]

omit [PyUnicode] in
theorem ext_two {x y : Tensor α} {A B : Nat} (hx : x.shape = [A, B]) (hy : y.shape = [A, B])
    (h : ∀ a b, a < A → b < B → x.at? [a, b] = y.at? [a, b]) : x = y := by
  refine Tensor.ext_at? (hx.trans hy.symm) fun i hi => ?_
  rw [hx] at hi
  obtain ⟨a, b, rfl, h1, h2⟩ := inBounds_two.1 hi
  exact h a b h1 h2

omit [PyUnicode] in
theorem ext_three {x y : Tensor α} {A B C : Nat} (hx : x.shape = [A, B, C]) (hy : y.shape = [A, B, C])
    (h : ∀ a b c, a < A → b < B → c < C → x.at? [a, b, c] = y.at? [a, b, c]) : x = y := by
  refine Tensor.ext_at? (hx.trans hy.symm) fun i hi => ?_
  rw [hx] at hi
  obtain ⟨a, b, c, rfl, h1, h2, h3⟩ := inBounds_three.1 hi
  exact h a b c h1 h2 h3

omit [PyUnicode] in
theorem ext_four {x y : Tensor α} {A B C D : Nat} (hx : x.shape = [A, B, C, D]) (hy : y.shape = [A, B, C, D])
    (h : ∀ a b c d, a < A → b < B → c < C → d < D → x.at? [a, b, c, d] = y.at? [a, b, c, d]) : x = y := by
  refine Tensor.ext_at? (hx.trans hy.symm) fun i hi => ?_
  rw [hx] at hi
  obtain ⟨a, b, c, d, rfl, h1, h2, h3, h4⟩ := inBounds_four.1 hi
  exact h a b c d h1 h2 h3 h4

end Einops
