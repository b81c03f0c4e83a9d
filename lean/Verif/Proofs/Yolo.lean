import Verif.Yolo
import Verif.Proofs.TorchOps
import Verif.Proofs.TorchRewrites
import Verif.Proofs.Packing
import Verif.Proofs.Elementwise
import Mathlib.Tactic.Ring
import Mathlib.Tactic.FieldSimp

/-! The detection layer. -/

namespace Einops

universe u
variable {α : Type u} {x y z : Tensor α}

namespace Yolo

/-- a tensor with this shape and these elements -/
def Has (x : Tensor α) (s : List Nat) (F : List Nat → α) : Prop := x.shape = s ∧ ∀ i, inBounds i s = true → x.at? i = some (F i)

variable {s t : List Nat} {F G : List Nat → α}

theorem ok_bind {β γ : Type u} (a : β) (f : β → Py γ) : (Except.ok a : Py β).bind f = f a := rfl

theorem Has.of (v : α) (hx : x.shape = s) : Has x s (fun i => (x.at? i).getD v) := by
  refine ⟨hx, fun i hi => ?_⟩
  obtain ⟨w, hw⟩ := x.at?_isSome (hx ▸ hi)
  simp [hw]

theorem Has.congr (h : Has x s F) (e : ∀ i, inBounds i s = true → F i = G i) : Has x s G :=
  ⟨h.1, fun i hi => by rw [h.2 i hi, e i hi]⟩

theorem Has.getE (h : Has x s F) {i : List Nat} (hi : inBounds i s = true) : x.getE i = .ok (F i) := x.getE_eq_ok.2 (h.2 i hi)

theorem Has.map (h : Has x s F) (g : α → α) : Has (x.map g) s (fun i => g (F i)) :=
  ⟨h.1, fun i hi => by rw [Tensor.at?_map, h.2 i hi]; rfl⟩

theorem has_build {f : List Nat → Py α} (h : ∀ i, inBounds i s = true → f i = .ok (F i)) : ∃ y, Tensor.build s f = .ok y ∧ Has y s F := by
  obtain ⟨y, h1, h2, h3⟩ := Tensor.build_total (shape := s) (f := f) (fun i hi => ⟨_, h i hi⟩)
  refine ⟨y, h1, h2, fun i hi => ?_⟩
  obtain ⟨v, v1, v2⟩ := (Tensor.build_ok h1).2 i hi
  rw [h i hi] at v1
  cases v1
  exact v2

theorem inBounds_five {A B C D E : Nat} {i : List Nat} :
    inBounds i [A, B, C, D, E] = true ↔ ∃ a b c d e, i = [a, b, c, d, e] ∧ a < A ∧ b < B ∧ c < C ∧ d < D ∧ e < E := by
  cases i with
  | nil => simp [inBounds]
  | cons a i =>
    rw [inBounds_cons, inBounds_four]
    constructor
    · rintro ⟨h, b, c, d, e, rfl, h'⟩
      exact ⟨a, b, c, d, e, rfl, h, h'⟩
    · rintro ⟨a', b, c, d, e, h, h1, h2⟩
      cases h
      exact ⟨h1, b, c, d, e, rfl, h2⟩

/-- the same data with another shape -/
theorem Has.withShape (h : Has x s F) (φ : List Nat → List Nat) (hp : t.prod = s.prod)
    (hφ : ∀ i, inBounds i t = true → inBounds (φ i) s = true ∧ ravel s (φ i) = ravel t i) :
    ∃ y, x.withShape t = .ok y ∧ Has y t (fun i => F (φ i)) := by
  obtain ⟨h1, h2⟩ := h
  subst h1
  have hw : x.data.length = t.prod := by rw [x.wf, hp]
  refine ⟨⟨t, x.data, hw⟩, withShape_data x t hp hw, rfl, fun i hi => ?_⟩
  obtain ⟨a1, a2⟩ := hφ i hi
  rw [← h2 _ a1, Tensor.at?_of_inBounds x a1, Tensor.at?_of_inBounds ⟨t, x.data, hw⟩ hi, a2]

theorem Has.view (h : Has x s F) (φ : List Nat → List Nat) (hp : t.prod = s.prod)
    (hφ : ∀ i, inBounds i t = true → inBounds (φ i) s = true ∧ ravel s (φ i) = ravel t i) :
    ∃ y, x.view (t.map Int.ofNat) = .ok y ∧ Has y t (fun i => F (φ i)) := by
  rw [view_nat]
  exact h.withShape φ hp hφ

theorem Has.viewInfer (h : Has x s F) (a b : List Nat) (n : Nat) (φ : List Nat → List Nat) (h0 : 0 ∉ a ++ b) (hp : (a ++ n :: b).prod = s.prod)
    (hφ : ∀ i, inBounds i (a ++ n :: b) = true → inBounds (φ i) s = true ∧ ravel s (φ i) = ravel (a ++ n :: b) i) :
    ∃ y, x.view (a.map Int.ofNat ++ -1 :: b.map Int.ofNat) = .ok y ∧ Has y (a ++ n :: b) (fun i => F (φ i)) := by
  obtain ⟨y, h1, h2⟩ := h.withShape φ hp hφ
  exact ⟨y, (view_infer a b).2 ⟨h0, n, h1⟩, h2⟩

theorem stretch_self {i : List Nat} (h : inBounds i s = true) : stretch s i = i := by
  induction i generalizing s with
  | nil => cases s <;> rfl
  | cons a i ih =>
    cases s with
    | nil => simp [inBounds] at h
    | cons d s =>
      obtain ⟨h1, h2⟩ := inBounds_cons.1 h
      rw [stretch, List.zipWith_cons_cons, ← stretch, ih h2]
      congr 1
      split <;> omega

/-- tensors of the same shape -/
theorem Has.zipSame (h : Has x s F) (h' : Has y s G) (g : α → α → α) :
    ∃ z, x.zipT g y = .ok z ∧ Has z s (fun i => g (F i) (G i)) := by
  unfold Tensor.zipT
  rw [if_pos ⟨by simp [Tensor.ndim, h.1, h'.1], fun k _ => .inl (by rw [h.1, h'.1])⟩, h.1, h'.1]
  rw [show List.zipWith (fun m n => if m = 1 then n else m) s s = s by
    rw [List.zipWith_self]; simp]
  refine has_build fun i hi => ?_
  rw [stretch_self hi, h.getE hi, h'.getE hi]

/-- the second tensor may have dimensions of length 1 -/
theorem Has.zipStretch (h : Has x s F) (h' : Has y t G) (g : α → α → α) (hl : t.length = s.length)
    (hd : ∀ k < s.length, nth t k = nth s k ∨ nth t k = 1) :
    ∃ z, x.zipT g y = .ok z ∧ Has z s (fun i => g (F i) (G (stretch t i))) := by
  unfold Tensor.zipT
  rw [if_pos ⟨by simp [Tensor.ndim, h.1, h'.1, hl], fun k hk => by
    rw [h.1, h'.1]
    rcases hd k (by simpa [Tensor.ndim, h.1] using hk) with h | h
    · exact .inl h.symm
    · exact .inr (.inr h)⟩, h.1, h'.1]
  have e1 : List.zipWith (fun m n => if m = 1 then n else m) s t = s := by
    clear h h'
    induction s generalizing t with
    | nil => rfl
    | cons d s ih =>
      cases t with
      | nil => simp at hl
      | cons d' t =>
        rw [List.zipWith_cons_cons, ih (by simpa using hl) fun k hk => by simpa [nth] using hd (k + 1) (by simpa using hk)]
        have := hd 0 (by simp)
        simp only [nth, List.getD_cons_zero] at this
        congr 1
        split <;> omega
  have e2 : ∀ i, inBounds i s = true → inBounds (stretch t i) t = true := by
    clear h h' e1
    induction s generalizing t with
    | nil =>
      intro i hi
      rw [List.length_eq_zero_iff.1 hl]
      simp [stretch]
    | cons d s ih =>
      cases t with
      | nil => simp at hl
      | cons d' t =>
        intro i hi
        cases i with
        | nil => simp [inBounds] at hi
        | cons a i =>
          obtain ⟨h1, h2⟩ := inBounds_cons.1 hi
          have := hd 0 (by simp)
          simp only [nth, List.getD_cons_zero] at this
          rw [stretch, List.zipWith_cons_cons, ← stretch]
          refine inBounds_cons.2 ⟨?_, ih (by simpa using hl) (fun k hk => by simpa [nth] using hd (k + 1) (by simpa using hk)) i h2⟩
          split <;> omega
  rw [e1]
  refine has_build fun i hi => ?_
  rw [stretch_self hi, h.getE hi, h'.getE (e2 i hi)]

theorem Has.zipFit (h : Has x s F) (h' : Has y t G) (g : α → α → α) (hd : List.Forall₂ (fun a c => a = c ∨ a = 1) t s) :
    ∃ z, x.zipT g y = .ok z ∧ Has z s (fun i => g (F i) (G (stretch t i))) := by
  refine h.zipStretch h' g hd.length_eq fun k hk => ?_
  have hk' : k < t.length := hd.length_eq ▸ hk
  simpa [nth, List.getD, hk, hk'] using (List.forall₂_iff_get.1 hd).2 k hk' hk

theorem ones_ravel (k : Nat) {i : List Nat} (h : inBounds i (List.replicate k 1 ++ s) = true) :
    inBounds (i.drop k) s = true ∧ ravel s (i.drop k) = ravel (List.replicate k 1 ++ s) i := by
  induction k generalizing i with
  | zero => exact ⟨h, rfl⟩
  | succ k ih =>
    cases i with
    | nil => simp [List.replicate_succ, inBounds] at h
    | cons a i =>
      rw [List.replicate_succ, List.cons_append] at h ⊢
      obtain ⟨h1, h2⟩ := inBounds_cons.1 h
      obtain rfl : a = 0 := by omega
      obtain ⟨h3, h4⟩ := ih h2
      refine ⟨h3, ?_⟩
      rw [List.drop_succ_cons, h4, ravel]
      simp

theorem mod_inBounds {r i : List Nat} (h : inBounds i (List.zipWith (fun d r => d * r) t r) = true) (hl : r.length = t.length) :
    inBounds (List.zipWith (fun j d => j % d) i t) t = true := by
  induction t generalizing r i with
  | nil => simp
  | cons d t ih =>
    cases r with
    | nil => simp at hl
    | cons c r =>
      cases i with
      | nil => simp [inBounds] at h
      | cons a i =>
        rw [List.zipWith_cons_cons] at h ⊢
        obtain ⟨h1, h2⟩ := inBounds_cons.1 h
        refine inBounds_cons.2 ⟨Nat.mod_lt _ ?_, ih h2 (by simpa using hl)⟩
        rcases Nat.eq_zero_or_pos d with rfl | h
        · omega
        · exact h

/-- `repeat` of torch -/
theorem Has.repeatT (h : Has x s F) (reps : List Nat) (k : Nat) (hk : reps.length = k + s.length) :
    ∃ y, x.repeatT reps = .ok y ∧ Has y (List.zipWith (fun d r => d * r) (List.replicate k 1 ++ s) reps)
      (fun i => F ((List.zipWith (fun j d => j % d) i (List.replicate k 1 ++ s)).drop k)) := by
  obtain ⟨y, h1, h2⟩ := h.withShape (t := List.replicate k 1 ++ s) (List.drop k) (by simp) fun i hi => ones_ravel k hi
  unfold Tensor.repeatT
  rw [show reps.length - x.ndim = k by simp [Tensor.ndim, h.1, hk], h.1, h1, ok_bind]
  unfold Tensor.tile
  rw [if_pos ⟨by simp [Tensor.ndim, h2.1, hk], by simp⟩, h2.1]
  rw [show List.zipWith (fun d (r : Int) => d * r.toNat) (List.replicate k 1 ++ s) (reps.map Int.ofNat) =
    List.zipWith (fun d r => d * r) (List.replicate k 1 ++ s) reps by rw [List.zipWith_map_right]; rfl]
  refine has_build fun i hi => ?_
  rw [h2.getE (mod_inBounds hi (by simp [hk]))]

theorem Has.select (h : Has x s F) {axis k : Nat} (ha : axis < s.length) (hk : k < nth s axis) :
    ∃ y, x.select axis (k : Int) = .ok y ∧ Has y (s.eraseIdx axis) (fun i => F (i.take axis ++ k :: i.drop axis)) := by
  unfold Tensor.select
  rw [if_pos (by simpa [Tensor.ndim, h.1] using ha)]
  simp only [h.1]
  rw [if_neg (show ¬ ((k : Int) < 0) by omega), if_pos ⟨by omega, by omega⟩, Int.toNat_natCast]
  refine has_build fun i hi => h.getE ?_
  clear h
  induction axis generalizing s i with
  | zero =>
    cases s with
    | nil => simp at ha
    | cons d s => exact inBounds_cons.2 ⟨by simpa [nth] using hk, hi⟩
  | succ axis ih =>
    cases s with
    | nil => simp at ha
    | cons d s =>
      cases i with
      | nil => simp [inBounds] at hi
      | cons a i =>
        rw [List.eraseIdx_cons_succ] at hi
        obtain ⟨h1, h2⟩ := inBounds_cons.1 hi
        rw [List.take_succ_cons, List.drop_succ_cons, List.cons_append]
        exact inBounds_cons.2 ⟨h1, ih (by simpa using ha) (by simpa [nth] using hk) i h2⟩

theorem Has.slice (h : Has x s F) {axis lo hi : Nat} (ha : axis < s.length) (h1 : lo ≤ hi) (h2 : hi ≤ nth s axis) :
    ∃ y, x.slice axis (lo : Int) (hi : Int) = .ok y ∧ Has y (s.set axis (hi - lo)) (fun i => F (i.set axis (nth i axis + lo))) := by
  unfold Tensor.slice
  rw [if_pos (by simpa [Tensor.ndim, h.1] using ha)]
  simp only [h.1]
  have e1 : clipSlice (nth s axis) (lo : Int) = lo := by unfold clipSlice; split <;> omega
  have e2 : clipSlice (nth s axis) (hi : Int) = hi := by unfold clipSlice; split <;> omega
  rw [e1, e2]
  refine has_build fun i hi' => h.getE ?_
  clear h e1 e2
  induction axis generalizing s i with
  | zero =>
    cases s with
    | nil => simp at ha
    | cons d s =>
      cases i with
      | nil => simp [inBounds] at hi'
      | cons a i =>
        obtain ⟨h3, h4⟩ := inBounds_cons.1 hi'
        refine inBounds_cons.2 ⟨?_, h4⟩
        simp only [nth, List.getD_cons_zero] at h2 ⊢
        omega
  | succ axis ih =>
    cases s with
    | nil => simp at ha
    | cons d s =>
      cases i with
      | nil => simp [inBounds] at hi'
      | cons a i =>
        rw [List.set_cons_succ] at hi'
        obtain ⟨h3, h4⟩ := inBounds_cons.1 hi'
        rw [List.set_cons_succ]
        exact inBounds_cons.2 ⟨h3, ih (by simpa using ha) (by simpa [nth] using h2) i h4⟩

theorem split_sum {ns : List Nat} {q : Nat} (h : q < ns.sum) : ∃ k n m, ns[k]? = some n ∧ m < n ∧ q = (ns.take k).sum + m := by
  induction ns generalizing q with
  | nil => simp at h
  | cons a ns ih =>
    by_cases hq : q < a
    · exact ⟨0, a, q, rfl, hq, by simp⟩
    · obtain ⟨k, n, m, h1, h2, h3⟩ := ih (q := q - a) (by simp at h; omega)
      exact ⟨k + 1, n, m, h1, h2, by simp; omega⟩

theorem has_concat {pre post : List Nat} (parts : List (Tensor α × Nat × (List Nat → α))) (hne : parts ≠ [])
    (hs : ∀ p ∈ parts, Has p.1 (pre ++ p.2.1 :: post) p.2.2)
    (hG : ∀ (k : Nat) p, parts[k]? = some p → ∀ i m j, inBounds i pre = true → m < p.2.1 → inBounds j post = true →
      G (i ++ (((parts.map (fun p => p.2.1)).take k).sum + m) :: j) = p.2.2 (i ++ m :: j)) :
    ∃ y, Tensor.concat (parts.map (fun p => p.1)) pre.length = .ok y ∧ Has y (pre ++ (parts.map (fun p => p.2.1)).sum :: post) G := by
  obtain ⟨y, h1, h2, h3⟩ := concat_ok (pre := pre) (post := post) (zs := parts.map (fun p => p.1)) (ns := parts.map (fun p => p.2.1))
    (by simpa using hne) (by simp) (fun k z n hz hn => by
      rw [List.getElem?_map, Option.map_eq_some_iff] at hz hn
      obtain ⟨p, hp, rfl⟩ := hz
      obtain ⟨p', hp', rfl⟩ := hn
      obtain rfl : p = p' := by simpa [hp] using hp'
      exact (hs p (List.mem_of_getElem? hp)).1)
  refine ⟨y, h1, h2, fun i hi => ?_⟩
  obtain ⟨u, q, v, rfl, hu, hq, hv⟩ : ∃ u q v, i = u ++ q :: v ∧ inBounds u pre = true ∧ q < (parts.map (fun p => p.2.1)).sum ∧
      inBounds v post = true := by
    obtain ⟨u, w, v, rfl, hu, hw, hv⟩ := inBounds_split (mid := [(parts.map (fun p => p.2.1)).sum]) (post := post) (by simpa using hi)
    cases w with
    | nil => simp [inBounds] at hw
    | cons q w =>
      obtain ⟨hq, hw⟩ := inBounds_cons.1 hw
      obtain rfl : w = [] := by cases w <;> simp_all [inBounds]
      exact ⟨u, q, v, by simp, hu, hq, hv⟩
  obtain ⟨k, n, m, hk, hm, rfl⟩ := split_sum hq
  have hk' := hk
  rw [List.getElem?_map, Option.map_eq_some_iff] at hk
  obtain ⟨p, hp, rfl⟩ := hk
  rw [h3 k p.1 p.2.1 (by rw [List.getElem?_map, hp]; rfl) hk' u m v hu hm hv,
    (hs p (List.mem_of_getElem? hp)).2 _ ((inBounds_append (inBounds_length hu)).2 ⟨hu, inBounds_cons.2 ⟨hm, hv⟩⟩), hG k p hp u m v hu hm hv]

theorem Has.expandFirst (h : Has x s F) : ∃ y, x.expandDims 0 = .ok y ∧ Has y (1 :: s) (fun i => F (i.drop 1)) := by
  unfold Tensor.expandDims
  rw [if_pos (by simp)]
  simp only [List.take_zero, List.drop_zero, List.nil_append, h.1]
  exact h.withShape (t := 1 :: s) (List.drop 1) (by simp) fun i hi => ones_ravel 1 hi

theorem has_arange [NatCast α] (n : Nat) : Has (arangeT n : Tensor α) [n] (fun i => ((nth i 0 : Nat) : α)) := by
  refine ⟨rfl, fun i hi => ?_⟩
  rw [Tensor.at?_of_inBounds _ hi]
  cases i with
  | nil => simp [inBounds] at hi
  | cons a i =>
    obtain ⟨h1, h2⟩ := inBounds_cons.1 hi
    cases i with
    | nil => simp [arangeT, ravel, nth, h1]
    | cons => simp [inBounds] at h2

theorem has_pairs [Zero α] (l : List (α × α)) :
    Has (pairTable l) [l.length, 2] (fun i => if nth i 1 = 0 then (l.getD (nth i 0) (0, 0)).1 else (l.getD (nth i 0) (0, 0)).2) := by
  refine ⟨rfl, fun i hi => ?_⟩
  rw [Tensor.at?_of_inBounds _ hi]
  obtain ⟨a, c, rfl, h1, h2⟩ := inBounds_two.1 hi
  simp only [pairTable, ravel, nth, List.getD_cons_zero, List.getD_cons_succ, List.prod_cons, List.prod_nil]
  clear hi
  induction l generalizing a with
  | nil => simp at h1
  | cons p l ih =>
    cases a with
    | zero =>
      obtain rfl | rfl : c = 0 ∨ c = 1 := by omega
      · simp
      · simp
    | succ a =>
      have := ih a (by simpa using h1)
      rw [List.flatMap_cons, show (a + 1) * (2 * 1) + (c * 1 + 0) = a * (2 * 1) + (c * 1 + 0) + 1 + 1 by ring]
      simpa using this

/-! ### The new program -/

section
attribute [local instance] asciiUnicode

theorem raw_pattern : @IsPattern asciiUnicode " b (anchor prediction) h w -> prediction b anchor h w".toList
    ([[['b']], [['a', 'n', 'c', 'h', 'o', 'r'], ['p', 'r', 'e', 'd', 'i', 'c', 't', 'i', 'o', 'n']], [['h']], [['w']]].map toElem)
    ([[['p', 'r', 'e', 'd', 'i', 'c', 't', 'i', 'o', 'n']], [['b']], [['a', 'n', 'c', 'h', 'o', 'r']], [['h']], [['w']]].map toElem) :=
  ⟨" b (anchor prediction) h w ".toList, " prediction b anchor h w".toList, by decide,
    isSide_of (by decide) (by decide) (by decide) (by decide), isSide_of (by decide) (by decide) (by decide) (by decide)⟩

theorem raw_names : ∀ w ∈ [[['b']], [['a', 'n', 'c', 'h', 'o', 'r'], ['p', 'r', 'e', 'd', 'i', 'c', 't', 'i', 'o', 'n']], [['h']], [['w']]].flatten,
    @IsName asciiUnicode false w := by decide

theorem sizes_pattern : @IsPattern asciiUnicode "anchor dim -> dim () anchor () ()".toList
    ([[['a', 'n', 'c', 'h', 'o', 'r']], [['d', 'i', 'm']]].map toElem)
    ([[['d', 'i', 'm']], [], [['a', 'n', 'c', 'h', 'o', 'r']], [], []].map toElem) :=
  ⟨"anchor dim ".toList, " dim () anchor () ()".toList, by decide,
    isSide_of (by decide) (by decide) (by decide) (by decide), isSide_of (by decide) (by decide) (by decide) (by decide)⟩

theorem sizes_names : ∀ w ∈ [[['a', 'n', 'c', 'h', 'o', 'r']], [['d', 'i', 'm']]].flatten, @IsName asciiUnicode false w := by decide

theorem rows_pattern : @IsPattern asciiUnicode "h -> () () h ()".toList ([[['h']]].map toElem) ([[], [], [['h']], []].map toElem) :=
  ⟨"h ".toList, " () () h ()".toList, by decide,
    isSide_of (by decide) (by decide) (by decide) (by decide), isSide_of (by decide) (by decide) (by decide) (by decide)⟩

theorem rows_names : ∀ w ∈ [[['h']]].flatten, @IsName asciiUnicode false w := by decide

theorem columns_pattern : @IsPattern asciiUnicode "w -> () () () w".toList ([[['w']]].map toElem) ([[], [], [], [['w']]].map toElem) :=
  ⟨"w ".toList, " () () () w".toList, by decide,
    isSide_of (by decide) (by decide) (by decide) (by decide), isSide_of (by decide) (by decide) (by decide) (by decide)⟩

theorem columns_names : ∀ w ∈ [[['w']]].flatten, @IsName asciiUnicode false w := by decide

theorem last_pattern : @IsPattern asciiUnicode "prediction b anchor h w -> b anchor h w prediction".toList
    ([[['p', 'r', 'e', 'd', 'i', 'c', 't', 'i', 'o', 'n']], [['b']], [['a', 'n', 'c', 'h', 'o', 'r']], [['h']], [['w']]].map toElem)
    ([[['b']], [['a', 'n', 'c', 'h', 'o', 'r']], [['h']], [['w']], [['p', 'r', 'e', 'd', 'i', 'c', 't', 'i', 'o', 'n']]].map toElem) :=
  ⟨"prediction b anchor h w ".toList, " b anchor h w prediction".toList, by decide,
    isSide_of (by decide) (by decide) (by decide) (by decide), isSide_of (by decide) (by decide) (by decide) (by decide)⟩

theorem last_names : ∀ w ∈ [[['p', 'r', 'e', 'd', 'i', 'c', 't', 'i', 'o', 'n']], [['b']], [['a', 'n', 'c', 'h', 'o', 'r']], [['h']], [['w']]].flatten,
    @IsName asciiUnicode false w := by decide

end

section
variable [PyUnicode] {E : ElemOps α} {b : Backend α}

theorem raw_moves (hb : Modelled E b) {B A P H W : Nat} (hA : 0 < A) (h : Has x [B, A * P, H, W] F) :
    ∃ y, (∀ so, rearrange b so (.one x) " b (anchor prediction) h w -> prediction b anchor h w".toList
      [("anchor".toList, ⟨A, true⟩)] = .ok y) ∧
      Has y [P, B, A, H, W] (fun i => F [nth i 1, nth i 2 * P + nth i 0, nth i 3, nth i 4]) := by
  have hn : Named " b (anchor prediction) h w -> prediction b anchor h w".toList
      [[['b']], [['a', 'n', 'c', 'h', 'o', 'r'], ['p', 'r', 'e', 'd', 'i', 'c', 't', 'i', 'o', 'n']], [['h']], [['w']]]
      [[['p', 'r', 'e', 'd', 'i', 'c', 't', 'i', 'o', 'n']], [['b']], [['a', 'n', 'c', 'h', 'o', 'r']], [['h']], [['w']]]
      [("anchor".toList, ⟨A, true⟩)]
      (look [['b'], ['a', 'n', 'c', 'h', 'o', 'r'], ['p', 'r', 'e', 'd', 'i', 'c', 't', 'i', 'o', 'n'], ['h'], ['w']] [B, A, P, H, W]) x.shape :=
    .of _ _ [['a', 'n', 'c', 'h', 'o', 'r']] [['a', 'n', 'c', 'h', 'o', 'r']] raw_pattern raw_names (by decide) (by decide)
      (by decide) (by decide) (by decide) (by decide) rfl (by rw [h.1]; simp [span, look]) (by simp [look, hA.ne'])
  obtain ⟨z, h1, h2, h3⟩ := hn.moves hb
  refine ⟨z, h1, by rw [h2]; simp [span, look], fun i hi => ?_⟩
  obtain ⟨p, ib, a, ih, iw, rfl, kp, kb, ka, kh, kw⟩ := inBounds_five.1 hi
  have := h3 (look [['b'], ['a', 'n', 'c', 'h', 'o', 'r'], ['p', 'r', 'e', 'd', 'i', 'c', 't', 'i', 'o', 'n'], ['h'], ['w']] [ib, a, p, ih, iw])
    (by simp [look, kp, kb, ka, kh, kw])
  simp only [List.map_cons, List.map_nil] at this
  have e := h.2 [ib, a * P + p, ih, iw] (inBounds_four.2 ⟨_, _, _, _, rfl, kb, by nlinarith, kh, kw⟩)
  have this : z.at? [p, ib, a, ih, iw] = x.at? [ib, a * P + p, ih, iw] := by simpa [place, look] using this
  rw [this, e]
  simp [nth]

theorem sizes_moves (hb : Modelled E b) {A : Nat} (h : Has x [A, 2] F) :
    ∃ y, (∀ so, rearrange b so (.one x) "anchor dim -> dim () anchor () ()".toList [] = .ok y) ∧
      Has y [2, 1, A, 1, 1] (fun i => F [nth i 2, nth i 0]) := by
  have hn : Named "anchor dim -> dim () anchor () ()".toList
      [[['a', 'n', 'c', 'h', 'o', 'r']], [['d', 'i', 'm']]]
      [[['d', 'i', 'm']], [], [['a', 'n', 'c', 'h', 'o', 'r']], [], []] []
      (look [['a', 'n', 'c', 'h', 'o', 'r'], ['d', 'i', 'm']] [A, 2]) x.shape :=
    .of _ _ [] [] sizes_pattern sizes_names (by decide) (by decide)
      (by decide) (by decide) (by decide) (by decide) rfl (by rw [h.1]; simp [span, look]) (by simp)
  obtain ⟨z, h1, h2, h3⟩ := hn.moves hb
  refine ⟨z, h1, by rw [h2]; simp [span, look], fun i hi => ?_⟩
  obtain ⟨d, o1, a, o2, o3, rfl, kd, k1, ka, k2, k3⟩ := inBounds_five.1 hi
  obtain rfl : o1 = 0 := by omega
  obtain rfl : o2 = 0 := by omega
  obtain rfl : o3 = 0 := by omega
  have := h3 (look [['a', 'n', 'c', 'h', 'o', 'r'], ['d', 'i', 'm']] [a, d]) (by simp [look, kd, ka])
  have this : z.at? [d, 0, a, 0, 0] = x.at? [a, d] := by simpa [place, look] using this
  rw [this, h.2 [a, d] (inBounds_two.2 ⟨_, _, rfl, ka, kd⟩)]
  simp [nth]

theorem rows_moves (hb : Modelled E b) {H : Nat} (h : Has x [H] F) :
    ∃ y, (∀ so, rearrange b so (.one x) "h -> () () h ()".toList [] = .ok y) ∧ Has y [1, 1, H, 1] (fun i => F [nth i 2]) := by
  have hn : Named "h -> () () h ()".toList [[['h']]] [[], [], [['h']], []] [] (look [['h']] [H]) x.shape :=
    .of _ _ [] [] rows_pattern rows_names (by decide) (by decide)
      (by decide) (by decide) (by decide) (by decide) rfl (by rw [h.1]; simp [span, look]) (by simp)
  obtain ⟨z, h1, h2, h3⟩ := hn.moves hb
  refine ⟨z, h1, by rw [h2]; simp [span, look], fun i hi => ?_⟩
  obtain ⟨o1, o2, a, o3, rfl, k1, k2, ka, k3⟩ := inBounds_four.1 hi
  obtain rfl : o1 = 0 := by omega
  obtain rfl : o2 = 0 := by omega
  obtain rfl : o3 = 0 := by omega
  have := h3 (look [['h']] [a]) (by simp [look, ka])
  have this : z.at? [0, 0, a, 0] = x.at? [a] := by simpa [place, look] using this
  rw [this, h.2 [a] (by simp [inBounds, ka])]
  simp [nth]

theorem columns_moves (hb : Modelled E b) {H : Nat} (h : Has x [H] F) :
    ∃ y, (∀ so, rearrange b so (.one x) "w -> () () () w".toList [] = .ok y) ∧ Has y [1, 1, 1, H] (fun i => F [nth i 3]) := by
  have hn : Named "w -> () () () w".toList [[['w']]] [[], [], [], [['w']]] [] (look [['w']] [H]) x.shape :=
    .of _ _ [] [] columns_pattern columns_names (by decide) (by decide)
      (by decide) (by decide) (by decide) (by decide) rfl (by rw [h.1]; simp [span, look]) (by simp)
  obtain ⟨z, h1, h2, h3⟩ := hn.moves hb
  refine ⟨z, h1, by rw [h2]; simp [span, look], fun i hi => ?_⟩
  obtain ⟨o1, o2, o3, a, rfl, k1, k2, k3, ka⟩ := inBounds_four.1 hi
  obtain rfl : o1 = 0 := by omega
  obtain rfl : o2 = 0 := by omega
  obtain rfl : o3 = 0 := by omega
  have := h3 (look [['w']] [a]) (by simp [look, ka])
  have this : z.at? [0, 0, 0, a] = x.at? [a] := by simpa [place, look] using this
  rw [this, h.2 [a] (by simp [inBounds, ka])]
  simp [nth]

theorem last_moves (hb : Modelled E b) {B A P H W : Nat} (h : Has x [P, B, A, H, W] F) :
    ∃ y, (∀ so, rearrange b so (.one x) "prediction b anchor h w -> b anchor h w prediction".toList [] = .ok y) ∧
      Has y [B, A, H, W, P] (fun i => F [nth i 4, nth i 0, nth i 1, nth i 2, nth i 3]) := by
  have hn : Named "prediction b anchor h w -> b anchor h w prediction".toList
      [[['p', 'r', 'e', 'd', 'i', 'c', 't', 'i', 'o', 'n']], [['b']], [['a', 'n', 'c', 'h', 'o', 'r']], [['h']], [['w']]]
      [[['b']], [['a', 'n', 'c', 'h', 'o', 'r']], [['h']], [['w']], [['p', 'r', 'e', 'd', 'i', 'c', 't', 'i', 'o', 'n']]] []
      (look [['b'], ['a', 'n', 'c', 'h', 'o', 'r'], ['p', 'r', 'e', 'd', 'i', 'c', 't', 'i', 'o', 'n'], ['h'], ['w']] [B, A, P, H, W]) x.shape :=
    .of _ _ [] [] last_pattern last_names (by decide) (by decide)
      (by decide) (by decide) (by decide) (by decide) rfl (by rw [h.1]; simp [span, look]) (by simp)
  obtain ⟨z, h1, h2, h3⟩ := hn.moves hb
  refine ⟨z, h1, by rw [h2]; simp [span, look], fun i hi => ?_⟩
  obtain ⟨ib, a, ih, iw, p, rfl, kb, ka, kh, kw, kp⟩ := inBounds_five.1 hi
  have := h3 (look [['b'], ['a', 'n', 'c', 'h', 'o', 'r'], ['p', 'r', 'e', 'd', 'i', 'c', 't', 'i', 'o', 'n'], ['h'], ['w']] [ib, a, p, ih, iw])
    (by simp [look, kp, kb, ka, kh, kw])
  have this : z.at? [ib, a, ih, iw, p] = x.at? [p, ib, a, ih, iw] := by simpa [place, look] using this
  rw [this, h.2 [p, ib, a, ih, iw] (inBounds_five.2 ⟨_, _, _, _, _, rfl, kp, kb, ka, kh, kw⟩)]
  simp [nth]

end

section
variable [Field α] [DecidableEq α] [PyUnicode] {E : ElemOps α} {b : Backend α}

theorem new_has (hb : Modelled E b) (sig exp : α → α) {input : Tensor α} {B nc H W : Nat} {anchors : List (α × α)} (sh sw : α)
    (hA : anchors ≠ []) (hi : input.shape = [B, anchors.length * (5 + nc), H, W]) :
    ∃ y, (∀ so, yoloNew b so sig exp input anchors.length anchors sh sw = .ok y) ∧
      Has y [B, anchors.length, H, W, 5 + nc] (fun i => newPrediction sig exp (anchors.getD (nth i 1) (0, 0)) sh sw (nth i 2) (nth i 3) (nth i 4)
        (rawPrediction input (5 + nc) (nth i 0) (nth i 1) (nth i 4) (nth i 2) (nth i 3))) := by
  have hA' : 0 < anchors.length := List.length_pos_iff.2 hA
  obtain ⟨raw, e1, p1⟩ := raw_moves hb hA' (Has.of 0 hi)
  obtain ⟨sz, e2, p2⟩ := sizes_moves hb (has_pairs anchors)
  obtain ⟨gh, e3, p3⟩ := rows_moves hb (has_arange (α := α) H)
  obtain ⟨gw, e4, p4⟩ := columns_moves hb (has_arange (α := α) W)
  obtain ⟨r0, e5, p5⟩ := p1.select (axis := 0) (k := 0) (by simp) (by simp [nth])
  obtain ⟨r0', e6, p6⟩ := (p5.map sig).zipFit p3 (· + ·) (by simp)
  obtain ⟨r1, e7, p7⟩ := p1.select (axis := 0) (k := 1) (by simp) (by simp [nth]; omega)
  obtain ⟨r1', e8, p8⟩ := (p7.map sig).zipFit p4 (· + ·) (by simp)
  obtain ⟨r2, e9, p9⟩ := p1.slice (axis := 0) (lo := 2) (hi := 4) (by simp) (by simp) (by simp [nth]; omega)
  obtain ⟨r2', e10, p10⟩ := (p9.map exp).zipFit p2 (· * ·) (by simp)
  obtain ⟨r4, e11, p11⟩ := p1.select (axis := 0) (k := 4) (by simp) (by simp [nth]; omega)
  obtain ⟨r5, e12, p12⟩ := p1.slice (axis := 0) (lo := 5) (hi := 5 + nc) (by simp) (by simp) (by simp [nth])
  obtain ⟨q0, e13, p13⟩ := (p6.map (· * sh)).expandFirst
  obtain ⟨q1, e14, p14⟩ := (p8.map (· * sw)).expandFirst
  obtain ⟨q4, e15, p15⟩ := (p11.map sig).expandFirst
  obtain ⟨z, e16, p16⟩ := has_concat (pre := []) (post := [B, anchors.length, H, W])
    (G := fun i => newPrediction sig exp (anchors.getD (nth i 2) (0, 0)) sh sw (nth i 3) (nth i 4) (nth i 0)
        (rawPrediction input (5 + nc) (nth i 1) (nth i 2) (nth i 0) (nth i 3) (nth i 4)))
    [(q0, 1, _), (q1, 1, _), (r2', 2, _), (q4, 1, _), (r5.map sig, nc, _)] (by simp)
    (by
      simp only [List.forall_mem_cons]
      exact ⟨p13, p14, p10, p15, by simpa using p12.map sig, by simp⟩) (by
      intro k p hk i m j hi hm hj
      obtain rfl : i = [] := by cases i <;> simp_all [inBounds]
      obtain ⟨ib, a, ih, iw, rfl, kb, ka, kh, kw⟩ := inBounds_four.1 hj
      have eA : (if anchors.length = 1 then 0 else a) = a := by split <;> omega
      have eH : (if H = 1 then 0 else ih) = ih := by split <;> omega
      have eW : (if W = 1 then 0 else iw) = iw := by split <;> omega
      match k, hk with
      | 0, hk =>
        cases hk
        obtain rfl : m = 0 := by simpa using hm
        simp [newPrediction, rawPrediction, nth, stretch, eA, eH, eW]
      | 1, hk =>
        cases hk
        obtain rfl : m = 0 := by simpa using hm
        simp [newPrediction, rawPrediction, nth, stretch, eA, eH, eW]
      | 2, hk =>
        cases hk
        obtain rfl | rfl : m = 0 ∨ m = 1 := by simp at hm; omega
        · simp [newPrediction, rawPrediction, nth, stretch, eA, eH, eW]
        · simp [newPrediction, rawPrediction, nth, stretch, eA, eH, eW]
      | 3, hk =>
        cases hk
        obtain rfl : m = 0 := by simpa using hm
        simp [newPrediction, rawPrediction, nth, stretch, eA, eH, eW]
      | 4, hk =>
        cases hk
        simp [newPrediction, rawPrediction, nth, Nat.add_comm 5 m]
      | k + 5, hk => simp at hk)
  obtain ⟨y, e17, p17⟩ := last_moves hb (P := 5 + nc) (x := z) (by
    have : (1 + (1 + (2 + (1 + nc)))) = 5 + nc := by omega
    simpa [this] using p16)
  refine ⟨y, fun so => ?_, p17⟩
  unfold yoloNew
  rw [e1, ok_bind, e2, ok_bind]
  simp only [p1.1]
  rw [e3, ok_bind, e4, ok_bind]
  simp only [Nat.cast_ofNat, Nat.cast_zero, Nat.cast_one] at e5 e7 e9 e11 e12
  rw [e5, ok_bind, e6, ok_bind, e7, ok_bind, e8, ok_bind, e9, ok_bind, e10, ok_bind, e11, ok_bind]
  simp only [nth, List.getD_cons_zero]
  rw [e12, ok_bind, e13, ok_bind, e14, ok_bind, e15, ok_bind]
  simp only [List.map_cons, List.map_nil, List.length_nil] at e16
  rw [e16, ok_bind, e17]

end

/-! ### The old program -/

theorem Has.shape (h : Has x s F) (e : s = t) : Has x t F := e ▸ h

theorem Has.permute {a c d e f : Nat} (h : Has x [a, c, d, e, f] F) :
    ∃ y, x.transpose [0, 1, 3, 4, 2] = .ok y ∧ Has y [a, c, e, f, d] (fun i => F [nth i 0, nth i 1, nth i 4, nth i 2, nth i 3]) := by
  unfold Tensor.transpose
  rw [if_pos (by simp [Tensor.ndim, h.1])]
  simp only [h.1]
  refine has_build fun i hi => ?_
  obtain ⟨i0, i1, i2, i3, i4, rfl, h0, h1, h2, h3, h4⟩ := inBounds_five.1 hi
  have := h.getE (inBounds_five.2 ⟨i0, i1, i4, i2, i3, rfl, h0, h1, h4, h2, h3⟩)
  simpa [Tensor.ndim, h.1, List.range_succ, nth, List.idxOf_cons] using this

theorem Has.swap {a c : Nat} (h : Has x [a, c] F) : ∃ y, x.transpose [1, 0] = .ok y ∧ Has y [c, a] (fun i => F [nth i 1, nth i 0]) := by
  unfold Tensor.transpose
  rw [if_pos (by simp [Tensor.ndim, h.1])]
  simp only [h.1]
  refine has_build fun i hi => ?_
  obtain ⟨i0, i1, rfl, h0, h1⟩ := inBounds_two.1 hi
  have := h.getE (inBounds_two.2 ⟨i1, i0, rfl, h1, h0⟩)
  simpa [Tensor.ndim, h.1, List.range_succ, nth, List.idxOf_cons] using this

/-- the grid of columns before it gets the shape of the predictions -/
theorem columns_grid [NatCast α] (N n : Nat) : ∃ g g', (arangeT n : Tensor α).repeatT [n, 1] = .ok g ∧ g.repeatT [N, 1, 1] = .ok g' ∧
    Has g' [N, n, n] (fun i => ((nth i 2 : Nat) : α)) := by
  obtain ⟨g, e1, p1⟩ := (has_arange (α := α) n).repeatT [n, 1] 1 rfl
  obtain ⟨g', e2, p2⟩ := (p1.shape (t := [n, n]) (by simp)).repeatT [N, 1, 1] 1 rfl
  refine ⟨g, g', e1, e2, (p2.shape (t := [N, n, n]) (by simp)).congr fun i hi => ?_⟩
  obtain ⟨i0, i1, i2, rfl, h0, h1, h2⟩ := inBounds_three.1 hi
  simp [nth, Nat.mod_eq_of_lt h2]

/-- the grid of rows -/
theorem rows_grid [NatCast α] (N n : Nat) : ∃ g g' g'', (arangeT n : Tensor α).repeatT [n, 1] = .ok g ∧ g.transpose [1, 0] = .ok g' ∧
    g'.repeatT [N, 1, 1] = .ok g'' ∧ Has g'' [N, n, n] (fun i => ((nth i 1 : Nat) : α)) := by
  obtain ⟨g, e1, p1⟩ := (has_arange (α := α) n).repeatT [n, 1] 1 rfl
  obtain ⟨g', e2, p2⟩ := (p1.shape (t := [n, n]) (by simp)).swap
  obtain ⟨g'', e3, p3⟩ := p2.repeatT [N, 1, 1] 1 rfl
  refine ⟨g, g', g'', e1, e2, e3, (p3.shape (t := [N, n, n]) (by simp)).congr fun i hi => ?_⟩
  obtain ⟨i0, i1, i2, rfl, h0, h1, h2⟩ := inBounds_three.1 hi
  simp [nth, Nat.mod_eq_of_lt h1]

theorem Has.gridView {B A n m : Nat} (h : Has x [B * A, n, m] F) :
    ∃ y, x.view ([B, A, n, m].map Int.ofNat) = .ok y ∧ Has y [B, A, n, m] (fun i => F [nth i 0 * A + nth i 1, nth i 2, nth i 3]) := by
  refine h.view (t := [B, A, n, m]) (fun i => [nth i 0 * A + nth i 1, nth i 2, nth i 3]) (by simp [mul_assoc]) fun i hi => ?_
  obtain ⟨i0, i1, i2, i3, rfl, h0, h1, h2, h3⟩ := inBounds_four.1 hi
  refine ⟨inBounds_three.2 ⟨_, _, _, rfl, ?_, h2, h3⟩, ?_⟩
  · simp only [nth, List.getD_cons_zero, List.getD_cons_succ]
    nlinarith
  · simp [ravel, nth]
    ring

/-- one column of the table of anchors, repeated -/
theorem anchor_grid {A k : Nat} (h : Has x [A, 2] F) (hk : k < 2) (B n m : Nat) : ∃ a a' a'' y, x.slice 1 (k : Nat) (k + 1 : Nat) = .ok a ∧
    a.repeatT [B, 1] = .ok a' ∧ a'.repeatT [1, 1, n * m] = .ok a'' ∧ a''.view ([B, A, n, m].map Int.ofNat) = .ok y ∧
    Has y [B, A, n, m] (fun i => F [nth i 1, k]) := by
  obtain ⟨a, e1, p1⟩ := h.slice (axis := 1) (lo := k) (hi := k + 1) (by simp) (by simp) (by simp [nth]; omega)
  obtain ⟨a', e2, p2⟩ := (p1.shape (t := [A, 1]) (by simp)).repeatT [B, 1] 0 rfl
  obtain ⟨a'', e3, p3⟩ := (p2.shape (t := [A * B, 1]) (by simp)).repeatT [1, 1, n * m] 1 rfl
  obtain ⟨y, e4, p4⟩ := (p3.shape (t := [1, A * B, n * m]) (by simp)).view (t := [B, A, n, m])
    (fun i => [0, nth i 0 * A + nth i 1, nth i 2 * m + nth i 3]) (by simp; ring) fun i hi => by
      obtain ⟨i0, i1, i2, i3, rfl, h0, h1, h2, h3⟩ := inBounds_four.1 hi
      refine ⟨inBounds_three.2 ⟨_, _, _, rfl, by omega, ?_, ?_⟩, ?_⟩
      · simp only [nth, List.getD_cons_zero, List.getD_cons_succ]
        nlinarith
      · simp only [nth, List.getD_cons_zero, List.getD_cons_succ]
        nlinarith
      · simp [ravel, nth]
        ring
  refine ⟨a, a', a'', y, e1, e2, e3, e4, p4.congr fun i hi => ?_⟩
  obtain ⟨i0, i1, i2, i3, rfl, h0, h1, h2, h3⟩ := inBounds_four.1 hi
  have e : (i0 * A + i1) % (A * B) % A = i1 := by
    rw [Nat.mod_mul_right_mod, Nat.mul_comm, Nat.mul_add_mod, Nat.mod_eq_of_lt h1]
  simp [nth, e, Nat.mod_one]

/-- the number of a cell -/
theorem cell_spec {A n q : Nat} (h : q < A * n * n) :
    q / (n * n) < A ∧ q / n % n < n ∧ q % n < n ∧ q = (q / (n * n) * n + q / n % n) * n + q % n := by
  have hn : 0 < n := by
    rcases Nat.eq_zero_or_pos n with rfl | h'
    · simp at h
    · exact h'
  refine ⟨Nat.div_lt_of_lt_mul (by nlinarith), Nat.mod_lt _ hn, Nat.mod_lt _ hn, ?_⟩
  rw [← Nat.div_div_eq_div_mul, Nat.div_add_mod', Nat.div_add_mod']

theorem cell_of {n a i j : Nat} (hi : i < n) (hj : j < n) :
    ((a * n + i) * n + j) / (n * n) = a ∧ ((a * n + i) * n + j) / n % n = i ∧ ((a * n + i) * n + j) % n = j := by
  have hn : 0 < n := by omega
  have e1 : ((a * n + i) * n + j) / n = a * n + i := by
    rw [Nat.mul_comm, Nat.mul_add_div hn, Nat.div_eq_of_lt hj, Nat.add_zero]
  have e2 : (a * n + i) / n = a := by rw [Nat.mul_comm, Nat.mul_add_div hn, Nat.div_eq_of_lt hi, Nat.add_zero]
  refine ⟨by rw [← Nat.div_div_eq_div_mul, e1, e2], ?_, ?_⟩
  · rw [e1, Nat.mul_comm, Nat.mul_add_mod, Nat.mod_eq_of_lt hi]
  · rw [Nat.mul_comm, Nat.mul_add_mod, Nat.mod_eq_of_lt hj]

theorem cell_lt {A n a i j : Nat} (ha : a < A) (hi : i < n) (hj : j < n) : (a * n + i) * n + j < A * n * n := by
  have : a * n + i < A * n := by nlinarith
  nlinarith

theorem Has.flatCells {B A n c : Nat} (h : Has x [B, A, n, n, c] F) (hB : 0 < B) (hc : 0 < c) :
    ∃ y, x.view [(B : Int), -1, (c : Int)] = .ok y ∧
      Has y [B, A * n * n, c] (fun i => F [nth i 0, nth i 1 / (n * n), nth i 1 / n % n, nth i 1 % n, nth i 2]) := by
  refine h.viewInfer [B] [c] (A * n * n) (fun i => [nth i 0, nth i 1 / (n * n), nth i 1 / n % n, nth i 1 % n, nth i 2]) (by simp; omega)
    (by simp only [List.prod_cons, List.prod_nil, List.cons_append, List.nil_append]; ring) fun i hi => ?_
  obtain ⟨i0, q, i2, rfl, h0, h1, h2⟩ := inBounds_three.1 hi
  obtain ⟨k1, k2, k3, k4⟩ := cell_spec h1
  refine ⟨inBounds_five.2 ⟨_, _, _, _, _, rfl, h0, k1, k2, k3, h2⟩, ?_⟩
  simp only [nth, List.getD_cons_zero, List.getD_cons_succ]
  generalize q / (n * n) = a at *
  generalize q / n % n = i at *
  generalize q % n = j at *
  subst k4
  simp [ravel]
  ring

theorem Has.flatCellsOne {B A n : Nat} (h : Has x [B, A, n, n] F) (hB : 0 < B) :
    ∃ y, x.view [(B : Int), -1, 1] = .ok y ∧
      Has y [B, A * n * n, 1] (fun i => F [nth i 0, nth i 1 / (n * n), nth i 1 / n % n, nth i 1 % n]) := by
  refine h.viewInfer [B] [1] (A * n * n) (fun i => [nth i 0, nth i 1 / (n * n), nth i 1 / n % n, nth i 1 % n]) (by simp; omega)
    (by simp only [List.prod_cons, List.prod_nil, List.cons_append, List.nil_append]; ring) fun i hi => ?_
  obtain ⟨i0, q, i2, rfl, h0, h1, h2⟩ := inBounds_three.1 hi
  obtain ⟨k1, k2, k3, k4⟩ := cell_spec h1
  refine ⟨inBounds_four.2 ⟨_, _, _, _, rfl, h0, k1, k2, k3⟩, ?_⟩
  obtain rfl : i2 = 0 := by omega
  simp only [nth, List.getD_cons_zero, List.getD_cons_succ]
  generalize q / (n * n) = a at *
  generalize q / n % n = i at *
  generalize q % n = j at *
  subst k4
  simp [ravel]
  ring

section
variable [Field α] [DecidableEq α]

/-- the parts of the input -/
theorem old_parts (input : Tensor α) {B A nc H W : Nat} (hi : input.shape = [B, A * (5 + nc), H, W]) :
    ∃ p pr x y w h conf cls, input.view [B, A, (5 + nc : Nat), H, W] = .ok p ∧ p.transpose [0, 1, 3, 4, 2] = .ok pr ∧
      pr.select 4 0 = .ok x ∧ pr.select 4 1 = .ok y ∧ pr.select 4 2 = .ok w ∧ pr.select 4 3 = .ok h ∧ pr.select 4 4 = .ok conf ∧
      pr.slice 4 5 (5 + nc : Nat) = .ok cls ∧
      (Has x [B, A, H, W] fun i => rawPrediction input (5 + nc) (nth i 0) (nth i 1) 0 (nth i 2) (nth i 3)) ∧
      (Has y [B, A, H, W] fun i => rawPrediction input (5 + nc) (nth i 0) (nth i 1) 1 (nth i 2) (nth i 3)) ∧
      (Has w [B, A, H, W] fun i => rawPrediction input (5 + nc) (nth i 0) (nth i 1) 2 (nth i 2) (nth i 3)) ∧
      (Has h [B, A, H, W] fun i => rawPrediction input (5 + nc) (nth i 0) (nth i 1) 3 (nth i 2) (nth i 3)) ∧
      (Has conf [B, A, H, W] fun i => rawPrediction input (5 + nc) (nth i 0) (nth i 1) 4 (nth i 2) (nth i 3)) ∧
      (Has cls [B, A, H, W, nc] fun i => rawPrediction input (5 + nc) (nth i 0) (nth i 1) (nth i 4 + 5) (nth i 2) (nth i 3)) := by
  obtain ⟨p, e1, p1⟩ := (Has.of 0 hi).view (t := [B, A, 5 + nc, H, W]) (fun i => [nth i 0, nth i 1 * (5 + nc) + nth i 2, nth i 3, nth i 4])
    (by simp only [List.prod_cons, List.prod_nil]; ring) fun i hi => by
      obtain ⟨i0, i1, i2, i3, i4, rfl, h0, h1, h2, h3, h4⟩ := inBounds_five.1 hi
      refine ⟨inBounds_four.2 ⟨_, _, _, _, rfl, h0, ?_, h3, h4⟩, ?_⟩
      · simp only [nth, List.getD_cons_zero, List.getD_cons_succ]
        nlinarith
      · simp [ravel, nth]
        ring
  obtain ⟨pr, e2, p2⟩ := p1.permute
  have hs : ∀ k < 5, ∃ x, pr.select 4 (k : Nat) = .ok x ∧
      Has x [B, A, H, W] fun i => rawPrediction input (5 + nc) (nth i 0) (nth i 1) k (nth i 2) (nth i 3) := by
    intro k hk
    obtain ⟨x, e3, p3⟩ := p2.select (axis := 4) (k := k) (by simp) (by simp [nth]; omega)
    refine ⟨x, e3, (p3.shape (t := [B, A, H, W]) rfl).congr fun i hi => ?_⟩
    obtain ⟨i0, i1, i2, i3, rfl, h0, h1, h2, h3⟩ := inBounds_four.1 hi
    simp [nth, rawPrediction]
  obtain ⟨x, e3, p3⟩ := hs 0 (by omega)
  obtain ⟨y, e4, p4⟩ := hs 1 (by omega)
  obtain ⟨w, e5, p5⟩ := hs 2 (by omega)
  obtain ⟨h, e6, p6⟩ := hs 3 (by omega)
  obtain ⟨conf, e7, p7⟩ := hs 4 (by omega)
  obtain ⟨cls, e8, p8⟩ := p2.slice (axis := 4) (lo := 5) (hi := 5 + nc) (by simp) (by simp) (by simp [nth])
  refine ⟨p, pr, x, y, w, h, conf, cls, e1, e2, e3, e4, e5, e6, e7, e8, p3, p4, p5, p6, p7,
    (p8.shape (t := [B, A, H, W, nc]) (by simp)).congr fun i hi => ?_⟩
  obtain ⟨i0, i1, i2, i3, i4, rfl, h0, h1, h2, h3, h4⟩ := inBounds_five.1 hi
  simp [nth, rawPrediction]

theorem old_has (sig exp : α → α) {input : Tensor α} {B nc n : Nat} {anchors : List (α × α)} {sh sw : α}
    (hA : anchors ≠ []) (hB : 0 < B) (hnc : 0 < nc) (hh : sh ≠ 0) (hw : sw ≠ 0)
    (hi : input.shape = [B, anchors.length * (5 + nc), n, n]) :
    ∃ y, yoloOld sig exp input nc anchors.length anchors sh sw = .ok y ∧
      Has y [B, anchors.length * n * n, 5 + nc] (fun i =>
        oldPrediction sig exp (anchors.getD (nth i 1 / (n * n)) (0, 0)) sh sw (nth i 1 / n % n) (nth i 1 % n) (nth i 2)
        (rawPrediction input (5 + nc) (nth i 0) (nth i 1 / (n * n)) (nth i 2) (nth i 1 / n % n) (nth i 1 % n))) := by
  obtain ⟨p, pr, x, y, w, h, conf, cls, e1, e2, e3, e4, e5, e6, e7, e8, p3, p4, p5, p6, p7, p8⟩ := old_parts input hi
  obtain ⟨g1, g2, e9, e10, p10⟩ := columns_grid (α := α) (B * anchors.length) n
  obtain ⟨gx, e11, p11⟩ := p10.gridView
  obtain ⟨g3, g4, g5, e12, e13, e14, p14⟩ := rows_grid (α := α) (B * anchors.length) n
  obtain rfl : g1 = g3 := by simpa [e9] using e12
  obtain ⟨gy, e15, p15⟩ := p14.gridView
  have hsc := (has_pairs (anchors.map fun p => (p.1 / sw, p.2 / sh))).shape (t := [anchors.length, 2]) (by simp)
  obtain ⟨a1, a2, a3, aw, e16, e17, e18, e19, p19⟩ := anchor_grid hsc (k := 0) (by omega) B n n
  obtain ⟨a4, a5, a6, ah, e20, e21, e22, e23, p23⟩ := anchor_grid hsc (k := 1) (by omega) B n n
  obtain ⟨b0, e24, p24⟩ := (p3.map sig).zipSame p11 (· + ·)
  obtain ⟨b1, e25, p25⟩ := (p4.map sig).zipSame p15 (· + ·)
  obtain ⟨b2, e26, p26⟩ := (p5.map exp).zipSame p19 (· * ·)
  obtain ⟨b3, e27, p27⟩ := (p6.map exp).zipSame p23 (· * ·)
  obtain ⟨bx, e28, s28, p28⟩ := stackAt_ok (pre := [B, anchors.length, n, n]) (post := []) (xs := [b0, b1, b2, b3]) (by simp)
    (by simp [p24.1, p25.1, p26.1, p27.1])
  have q28 : Has bx [B, anchors.length, n, n, 4] (fun i =>
      let c := anchors.getD (nth i 1) (0, 0)
      let v := rawPrediction input (5 + nc) (nth i 0) (nth i 1) (nth i 4) (nth i 2) (nth i 3)
      match nth i 4 with
      | 0 => sig v + (nth i 3 : Nat)
      | 1 => sig v + (nth i 2 : Nat)
      | 2 => exp v * (c.1 / sw)
      | _ => exp v * (c.2 / sh)) := by
    refine ⟨s28, fun i hi => ?_⟩
    obtain ⟨i0, i1, i2, i3, m, rfl, h0, h1, h2, h3, h4⟩ := inBounds_five.1 hi
    have hin : inBounds [i0, i1, i2, i3] [B, anchors.length, n, n] = true := inBounds_four.2 ⟨_, _, _, _, rfl, h0, h1, h2, h3⟩
    have key : ∀ t, [b0, b1, b2, b3][m]? = some t → bx.at? [i0, i1, i2, i3, m] = t.at? [i0, i1, i2, i3] := by
      intro t ht
      simpa using p28 m t ht [i0, i1, i2, i3] [] hin rfl
    obtain rfl | rfl | rfl | rfl : m = 0 ∨ m = 1 ∨ m = 2 ∨ m = 3 := by omega
    · rw [key b0 rfl, p24.2 _ hin]
      simp [nth]
    · rw [key b1 rfl, p25.2 _ hin]
      simp [nth]
    · rw [key b2 rfl, p26.2 _ hin]
      simp [nth, h1]
    · rw [key b3 rfl, p27.2 _ hin]
      simp [nth, h1]
  obtain ⟨f1, e29, p29⟩ := q28.flatCells hB (by omega)
  have hscale : Has (⟨[1, 1, 4], [sw, sh, sw, sh], rfl⟩ : Tensor α) [1, 1, 4] (fun i => if nth i 2 % 2 = 0 then sw else sh) := by
    refine ⟨rfl, fun i hi => ?_⟩
    rw [Tensor.at?_of_inBounds _ hi]
    obtain ⟨i0, i1, m, rfl, h0, h1, h2⟩ := inBounds_three.1 hi
    obtain rfl : i0 = 0 := by omega
    obtain rfl : i1 = 0 := by omega
    obtain rfl | rfl | rfl | rfl : m = 0 ∨ m = 1 ∨ m = 2 ∨ m = 3 := by omega
    all_goals simp [ravel, nth]
  obtain ⟨f2, e30, p30⟩ := p29.zipFit hscale (· * ·) (by simp)
  obtain ⟨f3, e31, p31⟩ := (p7.map sig).flatCellsOne hB
  obtain ⟨f4, e32, p32⟩ := (p8.map sig).flatCells hB hnc
  obtain ⟨out, e33, p33⟩ := has_concat (pre := [B, anchors.length * n * n]) (post := [])
    (G := fun i => oldPrediction sig exp (anchors.getD (nth i 1 / (n * n)) (0, 0)) sh sw (nth i 1 / n % n) (nth i 1 % n) (nth i 2)
        (rawPrediction input (5 + nc) (nth i 0) (nth i 1 / (n * n)) (nth i 2) (nth i 1 / n % n) (nth i 1 % n)))
    [(f2, 4, _), (f3, 1, _), (f4, nc, _)] (by simp)
    (by
      simp only [List.forall_mem_cons]
      exact ⟨p30, p31, p32, by simp⟩) (by
      intro k p hk i m j hi hm hj
      obtain rfl : j = [] := by cases j <;> simp_all [inBounds]
      obtain ⟨i0, q, rfl, h0, h1⟩ := inBounds_two.1 hi
      match k, hk with
      | 0, hk =>
        cases hk
        obtain rfl | rfl | rfl | rfl : m = 0 ∨ m = 1 ∨ m = 2 ∨ m = 3 := by simp at hm; omega
        · simp [oldPrediction, nth, stretch]
        · simp [oldPrediction, nth, stretch]
        · simp [oldPrediction, nth, stretch, mul_assoc, hw]
        · simp [oldPrediction, nth, stretch, mul_assoc, hh]
      | 1, hk =>
        cases hk
        obtain rfl : m = 0 := by simpa using hm
        simp [oldPrediction, nth]
      | 2, hk =>
        cases hk
        simp [oldPrediction, nth, Nat.add_comm 5 m]
      | k + 3, hk => simp at hk)
  refine ⟨out, ?_, p33.shape (by simp; omega)⟩
  unfold yoloOld
  simp only [hi]
  rw [if_neg (by simp [hh, hw]), if_neg hA, e1, ok_bind, e2, ok_bind, e3, ok_bind, e4, ok_bind, e5, ok_bind, e6, ok_bind, e7, ok_bind,
    e8, ok_bind, e9, ok_bind, e10, ok_bind, p3.1, e11, ok_bind, ok_bind, e13, ok_bind, e14, ok_bind, p4.1, e15, ok_bind]
  simp only [Nat.cast_zero, Nat.cast_one, zero_add, Nat.reduceAdd, Nat.cast_ofNat] at e16 e20 e29
  rw [e16, ok_bind, e17, ok_bind, e18, ok_bind, p5.1, e19, ok_bind, e20, ok_bind, e21, ok_bind, e22, ok_bind, p6.1, e23, ok_bind,
    e24, ok_bind, e25, ok_bind, e26, ok_bind, e27, ok_bind]
  simp only [List.length_cons, List.length_nil, Nat.reduceAdd, zero_add, List.map_cons, List.map_nil] at e28 e33
  rw [e28, ok_bind, e29, ok_bind, e30, ok_bind, e31, ok_bind, e32, ok_bind, e33]

/-- pictures that are not square -/
theorem old_error (sig exp : α → α) {input : Tensor α} {B nc H W : Nat} {anchors : List (α × α)} {sh sw : α}
    (hA : anchors ≠ []) (hB : 0 < B) (hh : sh ≠ 0) (hw : sw ≠ 0) (hne : H ≠ W)
    (hi : input.shape = [B, anchors.length * (5 + nc), H, W]) :
    yoloOld sig exp input nc anchors.length anchors sh sw = .error .backend := by
  have hA' : 0 < anchors.length := List.length_pos_iff.2 hA
  obtain ⟨p, pr, x, y, w, h, conf, cls, e1, e2, e3, e4, e5, e6, e7, e8, p3, p4, p5, p6, p7, p8⟩ := old_parts input hi
  obtain ⟨g1, g2, e9, e10, p10⟩ := columns_grid (α := α) (B * anchors.length) W
  obtain ⟨g3, g4, g5, e12, e13, e14, p14⟩ := rows_grid (α := α) (B * anchors.length) H
  unfold yoloOld
  simp only [hi]
  rw [if_neg (by simp [hh, hw]), if_neg hA, e1, ok_bind, e2, ok_bind, e3, ok_bind, e4, ok_bind, e5, ok_bind, e6, ok_bind, e7, ok_bind,
    e8, ok_bind, e9, ok_bind, e10, ok_bind, p3.1, view_nat]
  rcases Nat.eq_zero_or_pos W with rfl | hW
  · have : g2.withShape [B, anchors.length, H, 0] = .ok ⟨[B, anchors.length, H, 0], g2.data, by rw [g2.wf, p10.1]; simp⟩ :=
      withShape_data g2 _ (by rw [p10.1]; simp) _
    rw [this, ok_bind, e12, ok_bind, e13, ok_bind, e14, ok_bind, p4.1, view_nat]
    unfold Tensor.withShape
    rw [dif_neg (by rw [p14.1]; simp [hB.ne', hA, hne])]
    rfl
  · unfold Tensor.withShape
    rw [dif_neg ?_]
    · rfl
    · rw [p10.1]
      simp only [List.prod_cons, List.prod_nil, mul_one, mul_assoc]
      intro e
      have e := Nat.eq_of_mul_eq_mul_left hB e
      have e := Nat.eq_of_mul_eq_mul_left hA' e
      exact hne (Nat.eq_of_mul_eq_mul_right hW e)

end

theorem reshape_cells {B A n c : Nat} (hx : x.shape = [B, A * n * n, c]) :
    ∃ r, x.reshape ([B, A, n, n, c].map Int.ofNat) = .ok r ∧ r.shape = [B, A, n, n, c] ∧
      ∀ k a i j p, k < B → a < A → i < n → j < n → p < c → r.at? [k, a, i, j, p] = x.at? [k, (a * n + i) * n + j, p] := by
  have hp : [B, A, n, n, c].prod = x.shape.prod := by
    rw [hx]
    simp only [List.prod_cons, List.prod_nil]
    ring
  have hw : x.data.length = [B, A, n, n, c].prod := by rw [x.wf, hp]
  refine ⟨⟨[B, A, n, n, c], x.data, hw⟩, ?_, rfl, fun k a i j p hk ha hi hj hp => ?_⟩
  · rw [reshape_nonneg]
    exact withShape_data x _ hp hw
  · have h1 : inBounds [k, a, i, j, p] [B, A, n, n, c] = true := inBounds_five.2 ⟨_, _, _, _, _, rfl, hk, ha, hi, hj, hp⟩
    have h2 : inBounds [k, (a * n + i) * n + j, p] x.shape = true := by
      rw [hx]
      exact inBounds_three.2 ⟨_, _, _, rfl, hk, cell_lt ha hi hj, hp⟩
    rw [Tensor.at?_of_inBounds x h2, Tensor.at?_of_inBounds ⟨[B, A, n, n, c], x.data, hw⟩ h1, hx]
    congr 1
    simp [ravel]
    ring

end Yolo

end Einops
