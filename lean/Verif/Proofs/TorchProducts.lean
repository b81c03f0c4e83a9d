import Verif.TorchProducts
import Verif.EinsumSpec
import Verif.Proofs.TorchOps
import Verif.Proofs.Elementwise

/-! Elements of tensors computed with products. -/

namespace Einops

universe u
variable {α : Type u} {x y : Tensor α}

namespace Torch

/-- a tensor with three dimensions and its elements -/
def Has3 (x : Tensor α) (A B C : Nat) (F : Nat → Nat → Nat → α) : Prop :=
  x.shape = [A, B, C] ∧ ∀ a b c, a < A → b < B → c < C → x.at? [a, b, c] = some (F a b c)

/-- a tensor with four dimensions and its elements -/
def Has4 (x : Tensor α) (A B C D : Nat) (F : Nat → Nat → Nat → Nat → α) : Prop :=
  x.shape = [A, B, C, D] ∧ ∀ a b c d, a < A → b < B → c < C → d < D → x.at? [a, b, c, d] = some (F a b c d)

variable {A B C D : Nat}

theorem Has3.unique {F G : Nat → Nat → Nat → α} (h : Has3 x A B C F) (h' : Has3 y A B C G)
    (e : ∀ a b c, a < A → b < B → c < C → F a b c = G a b c) : x = y :=
  ext_three h.1 h'.1 fun a b c ha hb hc => by rw [h.2 a b c ha hb hc, h'.2 a b c ha hb hc, e a b c ha hb hc]

theorem Has4.unique {F G : Nat → Nat → Nat → Nat → α} (h : Has4 x A B C D F) (h' : Has4 y A B C D G)
    (e : ∀ a b c d, a < A → b < B → c < C → d < D → F a b c d = G a b c d) : x = y :=
  ext_four h.1 h'.1 fun a b c d ha hb hc hd => by
    rw [h.2 a b c d ha hb hc hd, h'.2 a b c d ha hb hc hd, e a b c d ha hb hc hd]

theorem Has3.of (v : α) (hx : x.shape = [A, B, C]) : Has3 x A B C (fun a b c => (x.at? [a, b, c]).getD v) := by
  refine ⟨hx, fun a b c ha hb hc => ?_⟩
  obtain ⟨w, hw⟩ := x.at?_isSome (i := [a, b, c]) (by rw [hx, inBounds_three]; exact ⟨a, b, c, rfl, ha, hb, hc⟩)
  simp [hw]

theorem Has4.of (v : α) (hx : x.shape = [A, B, C, D]) :
    Has4 x A B C D (fun a b c d => (x.at? [a, b, c, d]).getD v) := by
  refine ⟨hx, fun a b c d ha hb hc hd => ?_⟩
  obtain ⟨w, hw⟩ := x.at?_isSome (i := [a, b, c, d]) (by rw [hx, inBounds_four]; exact ⟨a, b, c, d, rfl, ha, hb, hc, hd⟩)
  simp [hw]

theorem getE_some {i : List Nat} {v : α} (h : x.at? i = some v) : x.getE i = .ok v := by
  unfold Tensor.getE
  rw [h]

theorem Has3.getE {F : Nat → Nat → Nat → α} (h : Has3 x A B C F) {a b c : Nat} (ha : a < A) (hb : b < B) (hc : c < C) :
    x.getE [a, b, c] = .ok (F a b c) := getE_some (h.2 a b c ha hb hc)

theorem Has4.getE {F : Nat → Nat → Nat → Nat → α} (h : Has4 x A B C D F) {a b c d : Nat} (ha : a < A) (hb : b < B) (hc : c < C)
    (hd : d < D) : x.getE [a, b, c, d] = .ok (F a b c d) := getE_some (h.2 a b c d ha hb hc hd)

theorem build3 {f : List Nat → Py α} {F : Nat → Nat → Nat → α}
    (h : ∀ a b c, a < A → b < B → c < C → f [a, b, c] = .ok (F a b c)) :
    ∃ y, Tensor.build [A, B, C] f = .ok y ∧ Has3 y A B C F := by
  obtain ⟨y, h1, h2, h3⟩ := Tensor.build_total (shape := [A, B, C]) (f := f) (fun i hi => by
    obtain ⟨a, b, c, rfl, ha, hb, hc⟩ := inBounds_three.1 hi
    exact ⟨_, h a b c ha hb hc⟩)
  refine ⟨y, h1, h2, fun a b c ha hb hc => ?_⟩
  obtain ⟨v, v1, v2⟩ := (Tensor.build_ok h1).2 [a, b, c] (inBounds_three.2 ⟨a, b, c, rfl, ha, hb, hc⟩)
  rw [h a b c ha hb hc] at v1
  cases v1
  exact v2

theorem build4 {f : List Nat → Py α} {F : Nat → Nat → Nat → Nat → α}
    (h : ∀ a b c d, a < A → b < B → c < C → d < D → f [a, b, c, d] = .ok (F a b c d)) :
    ∃ y, Tensor.build [A, B, C, D] f = .ok y ∧ Has4 y A B C D F := by
  obtain ⟨y, h1, h2, h3⟩ := Tensor.build_total (shape := [A, B, C, D]) (f := f) (fun i hi => by
    obtain ⟨a, b, c, d, rfl, ha, hb, hc, hd⟩ := inBounds_four.1 hi
    exact ⟨_, h a b c d ha hb hc hd⟩)
  refine ⟨y, h1, h2, fun a b c d ha hb hc hd => ?_⟩
  obtain ⟨v, v1, v2⟩ := (Tensor.build_ok h1).2 [a, b, c, d] (inBounds_four.2 ⟨a, b, c, d, rfl, ha, hb, hc, hd⟩)
  rw [h a b c d ha hb hc hd] at v1
  cases v1
  exact v2

theorem Has3.map {F : Nat → Nat → Nat → α} (h : Has3 x A B C F) (g : α → α) : Has3 (x.map g) A B C (fun a b c => g (F a b c)) :=
  ⟨h.1, fun a b c ha hb hc => by rw [Tensor.at?_map, h.2 a b c ha hb hc]; rfl⟩

theorem Has4.map {F : Nat → Nat → Nat → Nat → α} (h : Has4 x A B C D F) (g : α → α) :
    Has4 (x.map g) A B C D (fun a b c d => g (F a b c d)) :=
  ⟨h.1, fun a b c d ha hb hc hd => by rw [Tensor.at?_map, h.2 a b c d ha hb hc hd]; rfl⟩

/-- `x.transpose(1, 2)` -/
theorem Has3.swap {F : Nat → Nat → Nat → α} (h : Has3 x A B C F) :
    ∃ y, x.transpose [0, 2, 1] = .ok y ∧ Has3 y A C B (fun a c b => F a b c) := by
  have hn : x.ndim = 3 := by simp [Tensor.ndim, h.1]
  unfold Tensor.transpose
  rw [if_pos (by rw [hn]; decide), hn, h.1]
  exact build3 fun a c b ha hc hb => h.getE ha hb hc

theorem mapE_range {f : Nat → Py α} {g : Nat → α} {n : Nat} (h : ∀ k < n, f k = .ok (g k)) :
    mapE f (List.range n) = .ok ((List.range n).map g) := by
  rw [mapE_eq_ok_iff, List.map_map]
  exact List.map_congr_left fun k hk => h k (List.mem_range.1 hk)

/-- `torch.bmm` -/
theorem Has3.bmm [CommSemiring α] {F G : Nat → Nat → Nat → α} (h : Has3 x A B C F) (h' : Has3 y A C D G) :
    ∃ z, x.bmm y = .ok z ∧ Has3 z A B D (fun a b d => ((List.range C).map fun c => F a b c * G a c d).sum) := by
  unfold Tensor.bmm
  rw [h.1, h'.1]
  simp only
  rw [if_pos ⟨trivial, trivial⟩]
  refine build3 fun a b d ha hb hd => ?_
  simp only [nth, List.getD_cons_zero, List.getD_cons_succ]
  rw [mapE_range fun c hc => h.getE ha hb hc, mapE_range fun c hc => h'.getE ha hc hd]
  simp only [List.zipWith_map, List.zipWith_self]

/-- a function of the last axis -/
theorem Has3.lastAxis {F : Nat → Nat → Nat → α} (h : Has3 x A B C F) (g : List α → Nat → α) :
    ∃ y, x.lastAxis g = .ok y ∧ Has3 y A B C (fun a b c => g ((List.range C).map (F a b)) c) := by
  have hn : x.ndim = 3 := by simp [Tensor.ndim, h.1]
  unfold Tensor.lastAxis
  rw [if_neg (by omega), hn, h.1]
  refine build3 fun a b c ha hb hc => ?_
  simp only [nth, List.getD_cons_zero, List.getD_cons_succ, List.dropLast, List.cons_append, List.nil_append]
  rw [mapE_range fun c hc => h.getE ha hb hc]

theorem Has4.lastAxis {F : Nat → Nat → Nat → Nat → α} (h : Has4 x A B C D F) (g : List α → Nat → α) :
    ∃ y, x.lastAxis g = .ok y ∧ Has4 y A B C D (fun a b c d => g ((List.range D).map (F a b c)) d) := by
  have hn : x.ndim = 4 := by simp [Tensor.ndim, h.1]
  unfold Tensor.lastAxis
  rw [if_neg (by omega), hn, h.1]
  refine build4 fun a b c d ha hb hc hd => ?_
  simp only [nth, List.getD_cons_zero, List.getD_cons_succ, List.dropLast, List.cons_append, List.nil_append]
  rw [mapE_range fun d hd => h.getE ha hb hc hd]

/-- `masked_fill` with a mask of the same shape -/
theorem Has3.fill {F : Nat → Nat → Nat → α} {m : Tensor Bool} {M : Nat → Nat → Nat → Bool} (h : Has3 x A B C F)
    (hm : Has3 m A B C M) (v : α) : ∃ y, x.maskedFill m v = .ok y ∧ Has3 y A B C (fun a b c => if M a b c then v else F a b c) := by
  have hn : x.ndim = 3 := by simp [Tensor.ndim, h.1]
  have hn' : m.ndim = 3 := by simp [Tensor.ndim, hm.1]
  unfold Tensor.maskedFill
  rw [if_pos ⟨by rw [hn, hn'], fun k _ => .inl (by rw [h.1, hm.1])⟩, h.1, hm.1]
  refine build3 fun a b c ha hb hc => ?_
  simp only [List.zipWith_cons_cons, List.zipWith_nil_left]
  rw [show (if A = 1 then 0 else a) = a from by split <;> omega, show (if B = 1 then 0 else b) = b from by split <;> omega,
    show (if C = 1 then 0 else c) = c from by split <;> omega, hm.getE ha hb hc, h.getE ha hb hc]
  cases M a b c <;> rfl

/-- `masked_fill` with a mask with a first axis of length 1 -/
theorem Has4.fill {F : Nat → Nat → Nat → Nat → α} {m : Tensor Bool} {M : Nat → Nat → Nat → Nat → Bool} (h : Has4 x A B C D F)
    (hm : Has4 m 1 B C D M) (v : α) :
    ∃ y, x.maskedFill m v = .ok y ∧ Has4 y A B C D (fun a b c d => if M 0 b c d then v else F a b c d) := by
  have hn : x.ndim = 4 := by simp [Tensor.ndim, h.1]
  have hn' : m.ndim = 4 := by simp [Tensor.ndim, hm.1]
  unfold Tensor.maskedFill
  rw [if_pos ⟨by rw [hn, hn'], fun k _ => by
    rw [h.1, hm.1]
    match k with
    | 0 => exact .inr rfl
    | k + 1 => exact .inl rfl⟩, h.1, hm.1]
  refine build4 fun a b c d ha hb hc hd => ?_
  simp only [List.zipWith_cons_cons, List.zipWith_nil_left]
  rw [if_pos trivial, show (if B = 1 then 0 else b) = b from by split <;> omega,
    show (if C = 1 then 0 else c) = c from by split <;> omega, show (if D = 1 then 0 else d) = d from by split <;> omega,
    hm.getE Nat.one_pos hb hc hd, h.getE ha hb hc hd]
  cases M 0 b c d <;> rfl

/-- `mask.repeat(n, 1, 1)` -/
theorem Has3.tile {F : Nat → Nat → Nat → α} (h : Has3 x A B C F) (n : Nat) :
    ∃ y, x.tile [n, 1, 1] = .ok y ∧ Has3 y (n * A) B C (fun a b c => F (a % A) b c) := by
  have hn : x.ndim = 3 := by simp [Tensor.ndim, h.1]
  unfold Tensor.tile
  rw [if_pos ⟨by rw [hn]; rfl, by simp⟩, h.1]
  simp only [List.zipWith_cons_cons, List.zipWith_nil_left, Int.toNat_natCast, Int.toNat_one, Nat.mul_one]
  rw [Nat.mul_comm A n]
  refine build3 fun a b c ha hb hc => ?_
  simp only [List.zipWith_cons_cons, List.zipWith_nil_left]
  rw [Nat.mod_eq_of_lt hb, Nat.mod_eq_of_lt hc]
  exact h.getE (Nat.mod_lt _ (Nat.pos_of_ne_zero (by rintro rfl; simp at ha))) hb hc

/-- `mask[None]` -/
theorem Has3.none {F : Nat → Nat → Nat → α} (h : Has3 x A B C F) :
    ∃ y, x.expandDims 0 = .ok y ∧ Has4 y 1 A B C (fun _ a b c => F a b c) := by
  obtain ⟨y, h1, h2, h3⟩ := expandDims_ok (t := x) (pre := []) (s := [A, B, C]) h.1
  refine ⟨y, h1, h2, fun z a b c hz ha hb hc => ?_⟩
  obtain rfl : z = 0 := by omega
  rw [← h.2 a b c ha hb hc]
  exact (at_unit (x := y) (y := x) (pre := []) (post := [A, B, C]) h2 h.1 h3.symm (u := []) rfl).symm

/-- the first two dimensions merged -/
theorem Has4.merge {F : Nat → Nat → Nat → Nat → α} (h : Has4 x A B C D F) :
    ∃ y, x.withShape [A * B, C, D] = .ok y ∧ y.data = x.data ∧ Has3 y (A * B) C D (fun i c d => F (i / B) (i % B) c d) := by
  obtain ⟨y, h1, h2, h3⟩ := x.withShape_ok (s := [A * B, C, D]) (by rw [h.1]; simp; ring)
  refine ⟨y, h1, h3, h2, fun i c d hi hc hd => ?_⟩
  have hB : 0 < B := Nat.pos_of_ne_zero (by rintro rfl; simp at hi)
  have hA : i / B < A := (Nat.div_lt_iff_lt_mul hB).2 hi
  have hm : i % B < B := Nat.mod_lt _ hB
  rw [← h.2 _ _ c d hA hm hc hd, Tensor.at?_of_inBounds _ (by rw [h2]; exact inBounds_three.2 ⟨i, c, d, rfl, hi, hc, hd⟩),
    Tensor.at?_of_inBounds _ (by rw [h.1]; exact inBounds_four.2 ⟨_, _, c, d, rfl, hA, hm, hc, hd⟩), h2, h.1, h3]
  congr 1
  conv => lhs; rw [← Nat.div_add_mod' i B]
  simp [ravel]
  ring

/-- the first dimension split -/
theorem Has3.split {F : Nat → Nat → Nat → α} (h : Has3 x (A * B) C D F) :
    ∃ y, x.withShape [A, B, C, D] = .ok y ∧ y.data = x.data ∧ Has4 y A B C D (fun a b c d => F (a * B + b) c d) := by
  obtain ⟨y, h1, h2, h3⟩ := x.withShape_ok (s := [A, B, C, D]) (by rw [h.1]; simp; ring)
  refine ⟨y, h1, h3, h2, fun a b c d ha hb hc hd => ?_⟩
  have hi : a * B + b < A * B := by nlinarith
  rw [← h.2 _ c d hi hc hd, Tensor.at?_of_inBounds _ (by rw [h2]; exact inBounds_four.2 ⟨a, b, c, d, rfl, ha, hb, hc, hd⟩),
    Tensor.at?_of_inBounds _ (by rw [h.1]; exact inBounds_three.2 ⟨_, c, d, rfl, hi, hc, hd⟩), h2, h.1, h3]
  congr 1
  simp [ravel]
  ring

/-- the last two dimensions merged -/
theorem Has4.mergeLast {F : Nat → Nat → Nat → Nat → α} (h : Has4 x A B C D F) :
    ∃ y, x.withShape [A, B, C * D] = .ok y ∧ y.data = x.data ∧ Has3 y A B (C * D) (fun a b i => F a b (i / D) (i % D)) := by
  obtain ⟨y, h1, h2, h3⟩ := x.withShape_ok (s := [A, B, C * D]) (by rw [h.1]; simp)
  refine ⟨y, h1, h3, h2, fun a b i ha hb hi => ?_⟩
  have hD : 0 < D := Nat.pos_of_ne_zero (by rintro rfl; simp at hi)
  have hC : i / D < C := (Nat.div_lt_iff_lt_mul hD).2 hi
  have hm : i % D < D := Nat.mod_lt _ hD
  rw [← h.2 a b _ _ ha hb hC hm, Tensor.at?_of_inBounds _ (by rw [h2]; exact inBounds_three.2 ⟨a, b, i, rfl, ha, hb, hi⟩),
    Tensor.at?_of_inBounds _ (by rw [h.1]; exact inBounds_four.2 ⟨a, b, _, _, rfl, ha, hb, hC, hm⟩), h2, h.1, h3]
  congr 1
  conv => lhs; rw [← Nat.div_add_mod' i D]
  simp [ravel]

/-- the last dimension split -/
theorem Has3.splitLast {F : Nat → Nat → Nat → α} (h : Has3 x A B (C * D) F) :
    ∃ y, x.withShape [A, B, C, D] = .ok y ∧ y.data = x.data ∧ Has4 y A B C D (fun a b c d => F a b (c * D + d)) := by
  obtain ⟨y, h1, h2, h3⟩ := x.withShape_ok (s := [A, B, C, D]) (by rw [h.1]; simp)
  refine ⟨y, h1, h3, h2, fun a b c d ha hb hc hd => ?_⟩
  have hi : c * D + d < C * D := by nlinarith
  rw [← h.2 a b _ ha hb hi, Tensor.at?_of_inBounds _ (by rw [h2]; exact inBounds_four.2 ⟨a, b, c, d, rfl, ha, hb, hc, hd⟩),
    Tensor.at?_of_inBounds _ (by rw [h.1]; exact inBounds_three.2 ⟨a, b, _, rfl, ha, hb, hi⟩), h2, h.1, h3]
  congr 1
  simp [ravel]

/-- lengths or coordinates of axes called by letters -/
def ofChars (v : Char → Nat) : AxisMap
  | .str [c] => v c
  | _ => 0

/-- nested loops over the coordinates of the axes called by letters -/
def charLoops (val : Char → Nat) : List Char → (Char → Nat) → List (Char → Nat)
  | [], co => [co]
  | c :: cs, co => (List.range (val c)).flatMap fun i => charLoops val cs (fun d => if d = c then i else co d)

theorem charLoops_one (val : Char → Nat) (c : Char) (co : Char → Nat) :
    charLoops val [c] co = (List.range (val c)).map fun i d => if d = c then i else co d := by
  simp only [charLoops, List.map_eq_flatMap]

theorem loops_chars (val : Char → Nat) (S : List Char) (co : Char → Nat) :
    loops (ofChars val) (S.map fun c => .str [c]) (ofChars co) = (charLoops val S co).map ofChars := by
  induction S generalizing co with
  | nil => rfl
  | cons c S ih =>
    simp only [List.map_cons, loops, charLoops, List.map_flatMap]
    refine List.flatMap_congr fun i _ => ?_
    rw [← ih]
    congr 1
    funext a
    unfold setCoord
    split
    · rename_i h
      rw [h]
      simp [ofChars]
    · rename_i h
      match a with
      | .str [d] =>
        simp only [ofChars]
        rw [if_neg]
        rintro rfl
        exact h rfl
      | .str [] => rfl
      | .str (_ :: _ :: _) => rfl
      | .anon .. => rfl

theorem axes_chars (l : List Char) : symAxes 0 (l.map fun c => .name [c]) = l.map fun c => Axis.str [c] := by
  induction l with
  | nil => rfl
  | cons c l ih => simp [symAxes, ih]

theorem names_chars (l : List Char) : symNames (l.map fun c => .name [c]) = l.map fun c => [c] := by
  induction l with
  | nil => rfl
  | cons c l ih => simp [symNames, ih]

theorem write_chars (l : List Char) : writeSyms (fun w => w.headD 'a') (l.map fun c => .name [c]) = l := by
  induction l with
  | nil => rfl
  | cons c l ih => rw [List.map_cons, writeSyms, ih]; rfl

/-- a contraction of two tensors written with letters -/
theorem letters [CommSemiring α] {f : Str → List (Tensor α) → Py (Tensor α)} (hf : EinsumLawful f) (ls rs os S : List Char)
    {val : Char → Nat} (ha : ∀ c ∈ os ++ (ls ++ rs), c.isAlpha = true) (ho : os.Nodup) (hw : ∀ c ∈ os, c ∈ ls ∨ c ∈ rs)
    (hS : S.Nodup) (hS' : ∀ c ∈ ls ++ rs, c ∈ os ∨ c ∈ S) (hS'' : ∀ c ∈ S, (c ∈ ls ∨ c ∈ rs) ∧ c ∉ os)
    (hx : x.shape = ls.map val) (hy : y.shape = rs.map val) :
    ∃ z, f (ls ++ ',' :: rs ++ ['-', '>'] ++ os) [x, y] = .ok z ∧ z.shape = os.map val ∧
      ∀ co : Char → Nat, (∀ c ∈ os, co c < val c) →
        z.at? (os.map co) = some (((charLoops val S co).map fun e => entry x (ls.map e) * entry y (rs.map e)).sum) := by
  have hax : ∀ (l : List Char) (v : Char → Nat), (l.map fun c => Axis.str [c]).map (ofChars v) = l.map v := by
    intro l v
    rw [List.map_map]
    rfl
  obtain ⟨z, z1, z2, z3⟩ := hf [ls.map fun c => .name [c], rs.map fun c => .name [c]] (os.map fun c => .name [c]) (ofChars val) 0 [x, y]
    (by
      simp only [List.mem_cons, List.not_mem_nil, or_false, forall_eq_or_imp, forall_eq, names_chars, List.mem_map]
      refine ⟨?_, ?_, ?_⟩ <;> rintro w ⟨c, hc, rfl⟩ <;> exact ⟨c, ha c (by simp [hc]), rfl⟩)
    (by
      have : ∀ l : List Char, (l.map fun c => ESym.name [c]).count .ell ≤ 1 := fun l => by
        rw [List.count_eq_zero_of_not_mem (by simp)]
        exact Nat.zero_le _
      simp only [List.mem_cons, List.not_mem_nil, or_false, forall_eq_or_imp, forall_eq]
      exact ⟨this _, this _, this _⟩)
    { some_input := by simp
      shapes := by simp only [List.forall₂_cons, axes_chars, hax, hx, hy, List.Forall₂.nil, and_self]
      nodup := by
        rw [axes_chars]
        exact ho.map fun a b h => by simpa using h
      within := by
        intro w h
        rw [names_chars, List.mem_map] at h
        obtain ⟨c, hc, rfl⟩ := h
        rcases hw c hc with h | h
        · exact ⟨_, List.mem_cons_self, by simp [names_chars, h]⟩
        · exact ⟨_, List.mem_cons_of_mem _ List.mem_cons_self, by simp [names_chars, h]⟩
      ellipsis := by simp }
  simp only [axes_chars, List.map_cons, List.map_nil] at z2 z3
  refine ⟨z, ?_, by rw [z2, hax], fun co hco => ?_⟩
  · rw [← z1]
    simp only [writeEinsum, List.map_cons, List.map_nil, write_chars]
    simp [List.intercalate]
  · have := z3 (S.map fun c => .str [c]) (hS.map fun a b h => by simpa using h) (by
      intro a
      simp only [List.mem_cons, List.not_mem_nil, or_false, exists_eq_or_imp, exists_eq_left, List.mem_map]
      constructor
      · rintro ⟨c, hc, rfl⟩
        obtain ⟨h1, h2⟩ := hS'' c hc
        simp [h1, h2]
      · rintro ⟨h, h'⟩
        have : ∃ c ∈ ls ++ rs, Axis.str [c] = a := by
          rcases h with ⟨c, hc, e⟩ | ⟨c, hc, e⟩ <;> exact ⟨c, by simp [hc], e⟩
        obtain ⟨c, hc, rfl⟩ := this
        rcases hS' c hc with h | h
        · exact absurd ⟨c, h, rfl⟩ h'
        · exact ⟨c, h, rfl⟩) (ofChars co) (by
      intro a ha
      obtain ⟨c, hc, rfl⟩ := List.mem_map.1 ha
      exact hco c hc)
    rw [hax, loops_chars, List.map_map] at this
    rw [this]
    congr 3
    funext e
    simp [termProd, hax]

end Torch

end Einops
