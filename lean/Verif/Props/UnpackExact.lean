import Verif.Proofs.UnpackExact
import Verif.Props.Packing

/-!
# `unpack`, exactly

Property C57: the outcome of `unpack` for all packed shapes whose entries are lengths or -1, also when the lengths do not
fit the axis.
-/

namespace Einops

universe u

section
variable {α : Type u} [PyUnicode] {ops : PackOps α} {pattern : Str} {x : Tensor α} {pre post : List Nat} {N : Nat}
  {ps : List (List Int)}

/-- **C57** If no dimension around the star is zero, `unpack` returns tensors exactly when the axis can be cut as `Cuts`
describes, and returns those pieces. -/
theorem C57_unpack (ho : PackModelled ops) (hp : IsPackPattern pattern pre.length post.length)
    (hx : x.shape = pre ++ N :: post) (h0 : 0 ∉ pre ∧ 0 ∉ post) (hge : ∀ s ∈ ps, ∀ d ∈ s, -1 ≤ d) (ys : List (Tensor α)) :
    unpack ops x ps pattern = .ok ys ↔ ∃ qs, Cuts N ps qs ∧
      List.Forall₂ (fun q y => IsPiece pre post x q.1 q.2 y) qs ys := by
  constructor
  · intro h
    rcases eq_or_ne ps [] with rfl | hne
    · refine ⟨[], .nothing, ?_⟩
      obtain ⟨-, -, rs, hf, -, hlen, -⟩ := (unpack_iff ho hp hx hge (fun _ => rfl) ys).1 h
      rw [List.forall₂_nil_left_iff.1 hf] at hlen
      rw [List.length_eq_zero_iff.1 hlen.symm]
      exact .nil
    · by_cases hk : -1 ∈ ps.flatten
      · obtain ⟨hone, -⟩ := (unpack_iff ho hp hx hge (fun _ => rfl) ys).1 h
        obtain ⟨A, s, B, rfl, hs, hA, hB⟩ := unknown_split hk hone
        obtain ⟨a, t, b, fA, ft, fB, h1, hz, ta, tb, tt, hall⟩ := (unpack_unknown ho hp hx h0 hge hs hA hB ys).1 h
        exact ⟨_, .unknown hA hB fA ft fB h1 hz ta tb tt, hall⟩
      · obtain ⟨rs, hf, ht, hall⟩ := (unpack_known ho hp hx h0 hne hge hk ys).1 h
        exact ⟨_, .known hne hk hf ht, hall⟩
  · rintro ⟨qs, hc, hall⟩
    cases hc with
    | nothing =>
      rw [List.forall₂_nil_left_iff.1 hall]
      exact (unpack_iff ho hp hx hge (fun _ => rfl) []).2 ⟨by simp, by simp, [], .nil, by simp, rfl, by simp⟩
    | known hne hk hf ht => exact (unpack_known ho hp hx h0 hne hge hk ys).2 ⟨_, hf, ht, hall⟩
    | unknown hA hB fA ft fB h1 hz ta tb tt =>
      exact (unpack_unknown ho hp hx h0 hge (List.count_pos_iff.1 (by omega)) hA hB ys).2
        ⟨_, _, _, fA, ft, fB, h1, hz, ta, tb, tt, hall⟩

/-- **C57** If a dimension around the star is zero there are no elements, and `unpack` returns empty tensors of the shapes
asked for, whatever their lengths; only -1 is refused. -/
theorem C57_no_elements (ho : PackModelled ops) (hp : IsPackPattern pattern pre.length post.length)
    (hx : x.shape = pre ++ N :: post) (h0 : 0 ∈ pre ∨ 0 ∈ post) (hge : ∀ s ∈ ps, ∀ d ∈ s, -1 ≤ d) (ys : List (Tensor α)) :
    unpack ops x ps pattern = .ok ys ↔ -1 ∉ ps.flatten ∧ ∃ rs, List.Forall₂ Fills ps rs ∧
      List.Forall₂ (fun (r : List Nat) (y : Tensor α) => y.shape = pre ++ r ++ post) rs ys := by
  have hzero : ∀ r : List Nat, (pre ++ r ++ post).prod = 0 := by
    intro r
    by_contra h
    have := prod_ne_zero'.1 h
    simp only [List.mem_append] at this
    tauto
  rw [unpack_iff ho hp hx hge (fun _ => rfl) ys]
  constructor
  · rintro ⟨-, hz, rs, hf, -, hlen, hpc⟩
    refine ⟨?_, rs, hf, forall₂_of_get hlen (fun k r y hr hy => (hpc k r y hr hy).shape)⟩
    intro h
    obtain ⟨s, hs, hm⟩ := List.mem_flatten.1 h
    obtain ⟨-, h1, h2⟩ := hz s hs hm
    exact h0.elim h1 h2
  · rintro ⟨hk, rs, hf, hall⟩
    refine ⟨by rw [List.count_eq_zero.2 hk]; omega, fun s hs hm => absurd (List.mem_flatten.2 ⟨s, hs, hm⟩) hk, rs, hf, ?_,
      hall.length_eq, ?_⟩
    · intro k r _
      rw [hzero r, show ∀ n, pre ++ n :: post = pre ++ [n] ++ post from by simp, hzero]
    · intro k r y hr hy
      refine ⟨forall₂_get hall k hr hy, fun i s j hi _ hj => ?_⟩
      rcases h0 with h | h
      · have := ravel_lt hi
        exact absurd h (prod_ne_zero'.1 (by omega))
      · have := ravel_lt hj
        exact absurd h (prod_ne_zero'.1 (by omega))

/-- **C57** With a legal pattern, the right number of dimensions and at most one shape containing -1, the only exception is
RuntimeError. -/
theorem C57_errors {b a : Nat} (hp : IsPackPattern pattern b a) (hx : x.shape.length = b + 1 + a)
    (hge : ∀ s ∈ ps, ∀ d ∈ s, -1 ≤ d) (hone : (ps.filter (fun s => decide (-1 ∈ s))).length ≤ 1) {e : PyErr}
    (h : unpack ops x ps pattern = .error e) : e = .runtime := by
  unfold unpack at h
  rw [analyzePattern_iff.2 ⟨hp, rfl⟩] at h
  simp only at h
  rw [if_neg (by omega), if_neg (by rw [composedLengths_count hge]; omega)] at h
  split at h
  · cases h; rfl
  · cases h

/-- **C57** When `pack` undoes an `unpack` that succeeded: exactly if all lengths are known or the known ones leave room
for the unknown one.  Otherwise the pieces before and after it overlap. -/
theorem C57_round_trip (ho : PackModelled ops) (hp : IsPackPattern pattern pre.length post.length)
    (hx : x.shape = pre ++ N :: post) (h0 : 0 ∉ pre ∧ 0 ∉ post) (hne : ps ≠ []) (hge : ∀ s ∈ ps, ∀ d ∈ s, -1 ≤ d)
    {ys : List (Tensor α)} (h : unpack ops x ps pattern = .ok ys) :
    (∃ rs, pack ops ys pattern = .ok (x, rs)) ↔ (-1 ∉ ps.flatten ∨ knownTotal ps ≤ N) := by
  constructor
  · rintro ⟨rs, hpk⟩
    rw [or_iff_not_imp_left, not_not]
    intro hm
    obtain ⟨-, pre', post', hp', -, -, hpack⟩ := (pack_iff ho).1 hpk
    obtain ⟨hone, -⟩ := (unpack_iff ho hp hx hge (fun _ => rfl) ys).1 h
    obtain ⟨A, s, B, rfl, hs, hA, hB⟩ := unknown_split hm hone
    obtain ⟨a, t, b, fA, ft, fB, h1, hz, ta, tb, tt, hall⟩ := (unpack_unknown ho hp hx h0 hge hs hA hB ys).1 h
    obtain ⟨l1, l2⟩ := IsPackPattern.unique hp hp'
    have hsh := hpack.whole
    rw [hx] at hsh
    obtain ⟨rfl, hsh'⟩ := List.append_inj hsh l1
    obtain ⟨e, rfl⟩ := List.cons.inj hsh'
    have hrs : rs = a ++ t :: b := by
      have hq : (starts 0 a ++ (total a, t) :: starts (N - total b) b).map Prod.snd = a ++ t :: b := by simp [starts_snd]
      rw [← hq]
      have hl := hall.length_eq
      have hc := hpack.count
      refine List.ext_getElem (by rw [List.length_map]; omega) ?_
      intro k k1 k2
      rw [List.length_map] at k2
      have hy : ys[k]? = some (ys[k]'(by omega)) := by simp [show k < ys.length from by omega]
      have p1 := hpack.part k _ rs[k] hy (by simp [k1])
      have p2 := (forall₂_get hall k (a := (starts 0 a ++ (total a, t) :: starts (N - total b) b)[k]) (by simp [k2]) hy).shape
      rw [p1] at p2
      rw [List.getElem_map]
      exact List.append_cancel_left (List.append_cancel_right p2)
    rw [knownTotal_unknown hs, knownTotal_eq fA hA, knownTotal_eq fB hB]
    have : N = total a + (t.prod + total b) := by
      rw [e, hrs]
      simp [total]
    omega
  · intro hk
    obtain ⟨rs, -, hpk⟩ := C25_pack_unpack_partial ho hp hx h0 hne hge hk h
    exact ⟨rs, hpk⟩

end

section
attribute [local instance] asciiUnicode

-- the shapes before and after the unknown one overlap
example : Cuts 5 [[2], [-1, 3], [4]] [(0, [2]), (2, [0, 3]), (1, [4])] :=
  .unknown (A := [[2]]) (B := [[4]]) (u := [-1, 3]) (a := [[2]]) (b := [[4]]) (t := [0, 3]) (by decide) (by decide)
    (.cons (.cons (.inl rfl) .nil) .nil) (.cons (.inr rfl) (.cons (.inl rfl) .nil)) (.cons (.cons (.inl rfl) .nil) .nil)
    (by decide) (by decide) (by decide) (by decide) (by decide)
example : unpack numpyPack (vec 5) [[2], [-1, 3], [4]] "*".toList =
    .ok [⟨[2], [0, 1], rfl⟩, ⟨[0, 3], [], rfl⟩, ⟨[4], [1, 2, 3, 4], rfl⟩] := by rfl
-- one of them does not fit: negative positions count from the end, but the piece has a wrong length
example : unpack numpyPack (vec 5) [[2], [-1], [6]] "*".toList = .error .runtime := by rfl
example : unpack numpyPack (vec 5) [[6], [-1], [2]] "*".toList = .error .runtime := by rfl
example : unpack numpyPack (vec 5) [[-1], [3], [3]] "*".toList = .error .runtime := by rfl
example : unpack numpyPack (vec 6) [[-1, -1]] "*".toList = .error .runtime := by rfl
example : unpack numpyPack (vec 6) [[-1, 0]] "*".toList = .error .runtime := by rfl
example : unpack numpyPack (vec 6) [[-1, 4]] "*".toList = .error .runtime := by rfl
example : unpack numpyPack (⟨[0, 5], [], rfl⟩ : Tensor Int) [[7], [2, 3]] "a *".toList =
    .ok [⟨[0, 7], [], rfl⟩, ⟨[0, 2, 3], [], rfl⟩] := by rfl
example : unpack numpyPack (⟨[0, 5], [], rfl⟩ : Tensor Int) [[-1]] "a *".toList = .error .runtime := by rfl
end

end Einops
