import Verif.Proofs.GraphPacking

/-!
# `parse_shape`, `pack` and `unpack` in graph mode

The graph is built once, from the shapes that the framework reports, and then runs for every tensor (see `Props/Graph`).
-/

namespace Einops

universe u

/-! ### Specification -/

/-- The sizes of packed shapes have these values.  A symbol is only allowed if the framework compares it with -1, and its
value is then not -1. -/
def PackedAs (f : SymEq) (σ : Nat → Int) (ps : List (List Int)) (ps' : List (List GSize)) : Prop :=
  List.Forall₂ (List.Forall₂ fun n g => GSize.value σ g = .ok n ∧ ∀ e, g = .sym e → f = .identity ∧ n ≠ -1) ps ps'

section
variable {α : Type u} [PyUnicode] {σ : Nat → Int} {f : SymEq} {pattern : Str} {shape : List Nat} {shape' : List GSize}

omit [PyUnicode] in
theorem PackedAs.faithful {ps : List (List Int)} {ps' : List (List GSize)} (h : PackedAs f σ ps ps') :
    List.Forall₂ (List.Forall₂ (Faithful f σ)) ps ps' := by
  refine h.imp fun s s' hs => hs.imp ?_
  rintro n g ⟨hv, hsym⟩
  refine ⟨hv, ?_⟩
  cases g with
  | int m => cases hv; rfl
  | sym e =>
    obtain ⟨rfl, hn⟩ := hsym e rfl
    simp [GSize.eqInt, hn]
  | unknown => cases hv

theorem axes_of_core {side k : Nat} {e : Elem} {w : Str} (h : e.core = [w]) : ∃ i, (elemAxes side k e).axes =
    [if w = dots then .str ellipsisStr else if IsNumber w then .anon side i (decimalValue w) else .str w] := by
  obtain ⟨ks, h1, h2⟩ := wordsAxes_core (side := side) (k := k) (ws := e.words)
  unfold Elem.core at h
  rw [h] at h1 h2
  obtain ⟨i, rfl⟩ := List.length_eq_one_iff.1 h1
  exact ⟨i, by rw [elemAxes_axes, h2]; rfl⟩

theorem axes_of_core_nil {side k : Nat} {e : Elem} (h : e.core = []) : (elemAxes side k e).axes = [] := by
  obtain ⟨ks, h1, h2⟩ := wordsAxes_core (side := side) (k := k) (ws := e.words)
  unfold Elem.core at h
  rw [h] at h2
  rw [elemAxes_axes, h2]
  rfl

theorem denote_onlyNames {G : List Elem} (h : ∀ e ∈ G, ∃ w, e.core = [w] ∧ ¬ IsNumber w) (side k : Nat) :
    OnlyNames (denote side k G) := by
  induction G generalizing k with
  | nil => intro a ha; cases ha
  | cons e G ih =>
    intro a ha
    rw [denote_cons] at ha
    rcases List.mem_cons.1 ha with rfl | ha
    · obtain ⟨w, hw, hn⟩ := h e (by simp)
      obtain ⟨i, hi⟩ := axes_of_core (side := side) (k := k) hw
      rw [hi]
      by_cases hd : w = dots
      · exact ⟨_, by rw [if_pos hd]⟩
      · exact ⟨_, by rw [if_neg hd, if_neg hn]⟩
    · exact ih (fun e he => h e (by simp [he])) _ a ha

theorem denote_getElem {G : List Elem} {i : Nat} {e : Elem} (h : G[i]? = some e) (side k : Nat) :
    ∃ j, (denote side k G)[i]? = some (elemAxes side j e) := by
  induction G generalizing i k with
  | nil => cases h
  | cons e' G ih =>
    rw [denote_cons]
    cases i with
    | zero =>
      simp only [List.getElem?_cons_zero, Option.some.injEq] at h ⊢
      subst h
      exact ⟨k, rfl⟩
    | succ i => simpa using ih (by simpa using h) _

omit [PyUnicode] in
theorem composition_names {e : ParsedExpression} {n : Nat} {c : List CompAxis} (h : OnlyNames e.composition)
    (hc : shapeComposition e n = .ok c) : OnlyNames c := by
  unfold shapeComposition at hc
  split at hc
  · cases hi : indexE e.composition .ell with
    | error er => rw [hi] at hc; cases hc
    | ok k =>
      rw [hi] at hc
      cases hc
      intro a ha
      rcases List.mem_append.1 ha with ha | ha
      · rcases List.mem_append.1 ha with ha | ha
        · exact h a (List.mem_of_mem_take ha)
        · rw [List.eq_of_mem_replicate ha]
          exact ⟨_, rfl⟩
      · exact h a (List.mem_of_mem_drop ha)
  · cases hc
    exact h

/-! ### C76 -/

/-- **C76** Whatever `parse_shape` returns in graph mode has the values that it returns for the tensor; numbers and units in
the pattern were compared. -/
theorem C76_parse_shape (hs : Reports σ shape shape') {d' : List (Str × GSize)} (h : parseShapeG f shape' pattern = .ok d') :
    ∃ d, parseShape shape pattern = .ok d ∧ SameDict σ d d' := by
  unfold parseShapeG at h
  unfold parseShape
  cases hp : parseExpression 0 true false pattern with
  | error e => rw [hp] at h; cases h
  | ok e =>
    rw [hp] at h
    simp only at h ⊢
    rw [← List.Forall₂.length_eq hs] at h
    split at h
    · cases h
    · rename_i h1
      rw [if_neg h1]
      split at h
      · cases h
      · rename_i h2
        rw [if_neg h2]
        cases hc : shapeComposition e shape.length with
        | error er => rw [hc] at h; cases h
        | ok c =>
          rw [hc] at h
          exact shapeLoopG_sound hs .nil h

/-- **C76** With a pattern of names, underscores and the ellipsis, `parse_shape` works in graph mode whenever it works for
the tensor, and otherwise raises the same exception. -/
theorem C76_parse_shape_names (hell : '…' ∉ pattern) {G : List Elem} (hG : IsSide true false pattern G)
    (hn : ∀ e ∈ G, ∃ w, e.core = [w] ∧ ¬ IsNumber w) (hs : Reports σ shape shape') :
    (∃ d d', parseShape shape pattern = .ok d ∧ parseShapeG f shape' pattern = .ok d' ∧ SameDict σ d d') ∨
      ∃ e, parseShape shape pattern = .error e ∧ parseShapeG f shape' pattern = .error e := by
  unfold parseShapeG parseShape
  rw [(parseExpression_iff 0 true false pattern hell _).2 ⟨G, hG, rfl⟩]
  simp only
  rw [← List.Forall₂.length_eq hs]
  split
  · exact .inr ⟨_, rfl, rfl⟩
  · split
    · exact .inr ⟨_, rfl, rfl⟩
    · cases hc : shapeComposition (describe 0 G) shape.length with
      | error er => exact .inr ⟨_, rfl, rfl⟩
      | ok c =>
        refine .inl ?_
        obtain ⟨r, r', h1, h2, h3⟩ := shapeLoopG_names (f := f) hs
          (composition_names (e := describe 0 G) (denote_onlyNames hn 0 0) hc) (d := []) (d' := []) .nil
        exact ⟨r, r', h1, h2, h3⟩

/-- **C76** A number or a unit in the pattern cannot be checked against a symbol: `parse_shape` raises, also if the symbol
has the right value. -/
theorem C76_parse_shape_numbers (hell : '…' ∉ pattern) {G : List Elem} (hG : IsSide true false pattern G)
    (hd : dots ∉ sideWords G) {k : Nat} {e : Elem} (hk : G[k]? = some e)
    (he : e.core = [] ∨ ∃ w, e.core = [w] ∧ IsNumber w) {s : SymExpr} (hsym : shape'[k]? = some (.sym s)) :
    ∃ er, parseShapeG f shape' pattern = .error er := by
  unfold parseShapeG
  rw [(parseExpression_iff 0 true false pattern hell _).2 ⟨G, hG, rfl⟩]
  simp only
  split
  · exact ⟨_, rfl⟩
  · split
    · exact ⟨_, rfl⟩
    · have hc : shapeComposition (describe 0 G) shape'.length = .ok (denote 0 0 G) := by
        unfold shapeComposition
        rw [if_neg]
        · rfl
        · simp only [describe]
          simpa [sideWords] using hd
      rw [hc]
      obtain ⟨j, hj⟩ := denote_getElem hk 0 0
      refine shapeLoopG_error ?_ hj hsym
      rcases he with he | ⟨w, hw, hnum⟩
      · exact .inl (axes_of_core_nil he)
      · obtain ⟨i, hi⟩ := axes_of_core (side := 0) (k := j) hw
        refine .inr ⟨0, i, decimalValue w, ?_⟩
        rw [hi, if_neg, if_pos hnum]
        rintro rfl
        refine hd ?_
        have : dots ∈ e.words := core_mem (by rw [hw]; simp)
        exact List.mem_flatMap.2 ⟨e, List.mem_of_getElem? hk, this⟩

/-- **C76** The result of `parse_shape` in graph mode as keyword sizes of another call, as its docstring recommends: the
graph returns what the call on numbers returns. -/
theorem C76_parse_shape_keywords {so so' : SetOrder} {b : Backend α} {red : Reduction α} {x y : Tensor α} {pattern' : Str}
    (hs : Reports σ shape shape') {d' : List (Str × GSize)} (hd : parseShapeG f shape' pattern = .ok d')
    {s : List GSize} (hx : Reports σ x.shape s) {d : List (Str × Nat)} (hd' : parseShape shape pattern = .ok d)
    (hell : '…' ∉ pattern') (hkw : IntKw (d.map fun p => (p.1, Size.ofNat p.2))) {g : CookedG}
    (ht : traceCall so pattern' red.kind s d' = .ok g)
    (h : reduce b so' (.one x) pattern' red (d.map fun p => (p.1, Size.ofNat p.2)) = .ok y) :
    runGraph b g red σ x = .ok y := by
  obtain ⟨d0, h1, h2⟩ := C76_parse_shape hs hd
  rw [hd'] at h1
  cases h1
  refine C61_graph hell hkw ht hx ?_ h
  unfold Denotes
  rw [List.forall₂_map_left_iff]
  exact h2

/-- **C76** One graph of `pack` for all tensors: it returns what `pack` returns for the tensors, and the packed shapes
have the values of theirs. -/
theorem C76_pack {ops : PackOps α} {xs : List (Tensor α)} {shapes' : List (List GSize)}
    (hs : List.Forall₂ (fun x s => Reports σ x.shape s) xs shapes') (y : Tensor α) (ps : List (List Nat)) :
    pack ops xs pattern = .ok (y, ps) ↔ ∃ g ps', tracePack shapes' pattern = .ok (g, ps') ∧
      List.Forall₂ (Reports σ) ps ps' ∧ runPack ops g σ xs = .ok y := by
  by_cases hp : ∃ before after, IsPackPattern pattern before after
  swap
  · constructor
    · intro h
      rw [(C23_errors xs).1 hp] at h
      cases h
    · rintro ⟨g, ps', h, _⟩
      unfold tracePack at h
      cases ha : analyzePattern pattern with
      | error e => rw [ha] at h; cases h
      | ok v =>
        obtain ⟨b, a, m⟩ := v
        exact absurd ⟨b, a, (analyzePattern_iff.1 ha).1⟩ hp
  obtain ⟨before, after, hp⟩ := hp
  rw [pack_around hp (hs.imp fun x s h => h.around before after)]
  have hpart : List.Forall₂ (Reports σ) (xs.map fun x => packedPart before after x.shape)
      (shapes'.map (packedPart before after)) := by
    rw [List.forall₂_map_left_iff, List.forall₂_map_right_iff]
    refine hs.imp fun x s h => ?_
    unfold packedPart
    rw [show s.length = x.shape.length from h.length_eq.symm]
    exact List.forall₂_drop _ (List.forall₂_take _ h)
  constructor
  · rintro ⟨rfl, g, ps', h1, h2⟩
    refine ⟨g, ps', h1, ?_, h2⟩
    rw [tracePack_shapes hp h1]
    exact hpart
  · rintro ⟨g, ps', h1, h2, h3⟩
    refine ⟨?_, g, ps', h1, h3⟩
    rw [tracePack_shapes hp h1] at h2
    have huniq : ∀ {l m : List Nat} {g : List GSize}, Reports σ l g → Reports σ m g → l = m := by
      intro l m g hl hm
      induction hl generalizing m with
      | nil => cases hm; rfl
      | cons h _ ih =>
        cases hm with
        | cons h' hm =>
          rw [h] at h'
          rw [ih hm]
          simp only [Except.ok.injEq, Nat.cast_inj] at h'
          rw [h']
    generalize (xs.map fun x => packedPart before after x.shape) = l at hpart
    generalize shapes'.map (packedPart before after) = m at hpart h2
    clear h1 h3 hs hp
    induction hpart generalizing ps with
    | nil => cases h2; rfl
    | cons h _ ih =>
      cases h2 with
      | cons h' h2 => rw [huniq h h', ih _ h2]

/-- **C76** The packed dimensions themselves play no role for `pack`: it is enough that the other ones are reported, so
`UnknownSize` is possible there. -/
theorem C76_pack_unknown {ops : PackOps α} {before after : Nat} (hp : IsPackPattern pattern before after)
    {xs : List (Tensor α)} {shapes' : List (List GSize)}
    (hs : List.Forall₂ (fun x s => Around σ before after x.shape s) xs shapes') (y : Tensor α) :
    (∃ ps, pack ops xs pattern = .ok (y, ps)) ↔
      ∃ g ps', tracePack shapes' pattern = .ok (g, ps') ∧ runPack ops g σ xs = .ok y := by
  constructor
  · rintro ⟨ps, h⟩
    exact ((pack_around hp hs).1 h).2
  · intro h
    exact ⟨_, (pack_around hp hs).2 ⟨rfl, h⟩⟩

/-- **C76** One graph of `unpack` for all tensors: it returns what `unpack` returns. -/
theorem C76_unpack {ops : PackOps α} {x : Tensor α} (hs : Reports σ x.shape shape') {ps : List (List Int)}
    {ps' : List (List GSize)} (hps : PackedAs f σ ps ps') (ys : List (Tensor α)) :
    unpack ops x ps pattern = .ok ys ↔
      ∃ g, traceUnpack f shape' ps' pattern = .ok g ∧ runUnpack ops g σ x = .ok ys := by
  rcases unpack_graph (ops := ops) (pattern := pattern) hs hps.faithful with ⟨g, h1, h2⟩ | ⟨h1, h2⟩
  · rw [h1, h2]
    constructor
    · intro h
      refine ⟨g, rfl, ?_⟩
      cases hr : runUnpack ops g σ x with
      | error e => rw [hr] at h; cases h
      | ok r => rw [hr] at h; cases h; rfl
    · rintro ⟨_, h, h'⟩
      cases h
      rw [h']
      rfl
  · rw [h1, h2]
    constructor
    · intro h; cases h
    · rintro ⟨_, h, _⟩; cases h

/-- **C76** Building the graph of `unpack` is refused exactly when `unpack` raises an EinopsError, for every tensor. -/
theorem C76_unpack_refused {ops : PackOps α} {x : Tensor α} (hs : Reports σ x.shape shape') {ps : List (List Int)}
    {ps' : List (List GSize)} (hps : PackedAs f σ ps ps') :
    (∃ e, traceUnpack f shape' ps' pattern = .error e) ↔ unpack ops x ps pattern = .error .einops := by
  rcases unpack_graph (ops := ops) (pattern := pattern) hs hps.faithful with ⟨g, h1, h2⟩ | ⟨h1, h2⟩
  · rw [h1, h2]
    constructor
    · rintro ⟨_, h⟩; cases h
    · intro h
      cases hr : runUnpack ops g σ x <;> rw [hr] at h <;> cases h
  · rw [h1, h2]
    exact ⟨fun _ => rfl, fun _ => ⟨_, rfl⟩⟩

/-- **C76** `unpack` with the packed shapes that `pack` returned in graph mode gives the tensors back, if the framework
compares symbols by identity or the packed dimensions are numbers. -/
theorem C76_round_trip {ops : PackOps α} (ho : PackModelled ops) {xs : List (Tensor α)} {shapes' : List (List GSize)}
    (hs : List.Forall₂ (fun x s => Reports σ x.shape s) xs shapes') {y : Tensor α} {ps : List (List Nat)}
    (h : pack ops xs pattern = .ok (y, ps)) (hy : Reports σ y.shape shape') {g : PackGraph} {ps' : List (List GSize)}
    (hg : tracePack shapes' pattern = .ok (g, ps')) (hf : f = .identity ∨ ∀ s ∈ ps', ∀ d ∈ s, ∃ n, d = .int n) :
    runPack ops g σ xs = .ok y ∧
      ∃ u, traceUnpack f shape' ps' pattern = .ok u ∧ runUnpack ops u σ y = .ok xs := by
  obtain ⟨g', ps'', h1, h2, h3⟩ := (C76_pack hs y ps).1 h
  rw [hg] at h1
  cases h1
  refine ⟨h3, ?_⟩
  refine (C76_unpack (ops := ops) (ps := ps.map fun r => r.map Int.ofNat) hy ?_ xs).1 (C24_unpack_pack ho h).1
  unfold PackedAs
  rw [List.forall₂_map_left_iff]
  clear hg h3 h hs
  induction h2 with
  | nil => exact .nil
  | @cons r r' ps ps' hr _ ih =>
    refine .cons ?_ (ih ?_)
    · rw [List.forall₂_map_left_iff]
      have hf' : f = .identity ∨ ∀ d ∈ r', ∃ n, d = .int n := hf.imp id fun h => h r' (by simp)
      clear ih hf
      induction hr with
      | nil => exact .nil
      | @cons n d r r' hn _ ih =>
        refine .cons ⟨hn, ?_⟩ (ih (hf'.imp id fun h d hd => h d (by simp [hd])))
        rintro e rfl
        refine ⟨hf'.resolve_right fun h => ?_, by simp only [Int.ofNat_eq_natCast]; omega⟩
        obtain ⟨_, hc⟩ := h (.sym e) (by simp)
        cases hc
    · exact hf.imp id fun h s hs => h s (by simp [hs])

/-- **C76** Where comparing symbols is refused (tensorflow 2), `unpack` with a symbol in the packed shapes raises a
TypeError before anything is built, unless a -1 precedes the symbol. -/
theorem C76_unpack_symbols {before after : Nat} (hp : IsPackPattern pattern before after)
    (hl : shape'.length = before + 1 + after) {ps' : List (List GSize)} {a b : List GSize} {e : SymExpr}
    (hm : a ++ .sym e :: b ∈ ps') (ha : ∀ g ∈ a, ∃ n, g = .int n ∧ n ≠ -1) :
    traceUnpack .refuses shape' ps' pattern = .error .type := by
  unfold traceUnpack
  rw [analyzePattern_iff.2 ⟨hp, rfl⟩]
  simp only
  rw [if_neg (by simp [hl]), composed_error hm (hasMinusOne_refuses ha)]

/-- **C76** With an `UnknownSize` in the packed shapes or in the reported shape, `unpack` never returns a tensor. -/
theorem C76_unpack_unknown {ops : PackOps α} {x : Tensor α} {ps' : List (List GSize)}
    (h : (∃ s ∈ ps', GSize.unknown ∈ s) ∨ (ps' ≠ [] ∧ GSize.unknown ∈ shape')) {g : UnpackGraph}
    (hg : traceUnpack f shape' ps' pattern = .ok g) : ∃ e, runUnpack ops g σ x = .error e := by
  unfold traceUnpack at hg
  cases ha : analyzePattern pattern with
  | error e => rw [ha] at hg; cases hg
  | ok v =>
    obtain ⟨before, after, m⟩ := v
    rw [ha] at hg
    simp only at hg
    split at hg
    · cases hg
    rename_i hl
    rw [not_not] at hl
    cases hls : mapE (composedLengthG f) ps' with
    | error e => rw [hls] at hg; cases hg
    | ok lengths =>
      rw [hls] at hg
      simp only at hg
      cases hfl : mapE (GSize.eqInt f (-1)) lengths with
      | error e => rw [hfl] at hg; cases hg
      | ok flags =>
        rw [hfl] at hg
        simp only at hg
        split at hg
        · cases hg
        cases hsp : splitPositionsG (shape'.getD before (.int 0)) lengths flags with
        | error e => rw [hsp] at hg; cases hg
        | ok sp =>
          rw [hsp] at hg
          cases hg
          have n1 : lengths.length = ps'.length := (List.Forall₂.length_eq (mapE_iff.1 hls)).symm
          have n2 : flags.length = lengths.length := (List.Forall₂.length_eq (mapE_iff.1 hfl)).symm
          have hlast : sp.getD ps'.length (.int 0) = shape'.getD before (.int 0) := by
            rw [← n1]
            refine splitPositionsG_last hsp ⟨?_, fun hc => ?_⟩
            · rw [← n2]
              exact List.idxOf_le_length
            · rw [← n2]
              exact List.idxOf_lt_length_iff.2 (List.count_pos_iff.1 (Nat.pos_of_ne_zero hc))
          unfold runUnpack
          simp only
          rcases h with ⟨s, hs, hu⟩ | ⟨hne, hu⟩
          · obtain ⟨i, hi, rfl⟩ := List.mem_iff_getElem.1 hs
            refine mapE_mem_error (List.mem_map_of_mem (List.mk_mem_zipIdx_iff_getElem?.2 (List.getElem?_eq_getElem hi)))
              (runPiece_unknown (.inr (.inr ?_)))
            simp [hu]
          · have hin : ps'.length - 1 < ps'.length := by
              have := List.length_pos_iff.2 hne
              omega
            refine mapE_mem_error (List.mem_map_of_mem (List.mk_mem_zipIdx_iff_getElem?.2 (List.getElem?_eq_getElem hin)))
              (runPiece_unknown ?_)
            simp only
            obtain ⟨i, hi, hi'⟩ := List.mem_iff_getElem.1 hu
            rcases Nat.lt_trichotomy i before with hlt | rfl | hgt
            · refine .inr (.inr ?_)
              rw [List.mem_append, List.mem_append]
              refine .inl (.inl ?_)
              rw [← hi']
              exact List.mem_take_iff_getElem.2 ⟨i, by omega, rfl⟩
            · refine .inr (.inl ?_)
              rw [show ps'.length - 1 + 1 = ps'.length by omega, hlast, List.getD_eq_getElem?_getD, List.getElem?_eq_getElem hi, hi']
              rfl
            · refine .inr (.inr ?_)
              rw [List.mem_append]
              refine .inr ?_
              rw [← hi']
              exact List.mem_drop_iff_getElem.2 ⟨i - (before + 1), by omega, by
                congr 1
                omega⟩

end

/-! ### Examples -/

section
attribute [local instance] asciiUnicode

/-- the numbers from 0 on in this shape -/
def countUp (s : List Nat) : Tensor Int := ⟨s, (List.range s.prod).map Int.ofNat, by simp⟩

/-- the symbols of a first tensor of shape (2, 3) and of a second one of shape (2, 2, 2) -/
def twoDims (k : Nat) : Int := [2, 3, 2, 2, 2].getD k 0

/-- what is reported for the two: all symbols, and with known dimensions other than the first -/
def twoShapes : List (List GSize) := [[.sym (.var 0), .sym (.var 1)], [.sym (.var 2), .sym (.var 3), .sym (.var 4)]]
def batchShapes : List (List GSize) := [[.sym (.var 0), .int 3], [.sym (.var 2), .int 2, .int 2]]

example : List.Forall₂ (fun (x : Tensor Int) s => Reports twoDims x.shape s) [countUp [2, 3], countUp [2, 2, 2]] twoShapes :=
  .cons (.cons rfl (.cons rfl .nil)) (.cons (.cons rfl (.cons rfl (.cons rfl .nil))) .nil)
example : List.Forall₂ (fun (x : Tensor Int) s => Reports twoDims x.shape s) [countUp [2, 3], countUp [2, 2, 2]] batchShapes :=
  .cons (.cons rfl (.cons rfl .nil)) (.cons (.cons rfl (.cons rfl (.cons rfl .nil))) .nil)

-- `pack`: the graph, and a run of it
example : tracePack twoShapes "b *".toList = .ok (⟨[[.sym (.var 0), .int (-1)], [.sym (.var 2), .int (-1)]], 1⟩,
    [[.sym (.var 1)], [.sym (.var 3), .sym (.var 4)]]) := by decide +kernel
example : runPack numpyPack ⟨[[.sym (.var 0), .int (-1)], [.sym (.var 2), .int (-1)]], 1⟩ twoDims
    [countUp [2, 3], countUp [2, 2, 2]] = .ok ⟨[2, 7], [0, 1, 2, 0, 1, 2, 3, 3, 4, 5, 4, 5, 6, 7], rfl⟩ := by decide +kernel

/-- trace and run `unpack` for a tensor of shape (2, 7) -/
def unpackCall (f : SymEq) (ps : List (List GSize)) : Py (List (Tensor Int)) :=
  match traceUnpack f [.sym (.var 0), .sym (.var 5)] ps "b *".toList with
  | .error e => .error e
  | .ok g => runUnpack numpyPack g (fun k => if k = 5 then 7 else twoDims k)
      ⟨[2, 7], [0, 1, 2, 0, 1, 2, 3, 3, 4, 5, 4, 5, 6, 7], rfl⟩

-- the packed shapes of `pack` give the tensors back with pytensor; tensorflow 2 refuses to compare them with -1 ...
example : unpackCall .identity [[.sym (.var 1)], [.sym (.var 3), .sym (.var 4)]] =
    .ok [countUp [2, 3], countUp [2, 2, 2]] := by decide +kernel
theorem C76_tensorflow2 :
    unpackCall .refuses [[.sym (.var 1)], [.sym (.var 3), .sym (.var 4)]] = .error .type := by decide +kernel
-- ... but works if only other dimensions are symbols, or if -1 comes first
example : unpackCall .refuses [[.int 3], [.int 2, .int 2]] = .ok [countUp [2, 3], countUp [2, 2, 2]] := by decide +kernel
example : unpackCall .refuses [[.int 3], [.int (-1), .sym (.var 4)]] = .ok [countUp [2, 3], countUp [2, 2, 2]] := by
  decide +kernel
-- a -1 in the middle: positions are counted from the end
example : traceUnpack .identity [.sym (.var 0), .sym (.var 5)] [[.int 2], [.int (-1)], [.sym (.var 1)]] "b *".toList =
    .ok ⟨1, [(.int 0, .int 2, [.sym (.var 0), .int 2]),
      (.int 2, .sym (.sub (.var 5) (.mul (.int 1) (.var 1))), [.sym (.var 0), .int (-1)]),
      (.sym (.sub (.var 5) (.mul (.int 1) (.var 1))), .sym (.var 5), [.sym (.var 0), .sym (.var 1)])]⟩ := by decide +kernel
-- the hypotheses of `C76_unpack`
example : PackedAs .identity twoDims [[3], [2, 2]] [[.sym (.var 1)], [.sym (.var 3), .sym (.var 4)]] :=
  .cons (.cons ⟨rfl, fun _ _ => ⟨rfl, by decide⟩⟩ .nil)
    (.cons (.cons ⟨rfl, fun _ _ => ⟨rfl, by decide⟩⟩ (.cons ⟨rfl, fun _ _ => ⟨rfl, by decide⟩⟩ .nil)) .nil)
example : PackedAs .refuses twoDims [[3], [-1]] [[.int 3], [.int (-1)]] :=
  .cons (.cons ⟨rfl, fun _ h => by cases h⟩ .nil) (.cons (.cons ⟨rfl, fun _ h => by cases h⟩ .nil) .nil)

/-- A symbol whose value is -1 is not recognised (this is why `PackedAs` excludes it): with numbers two of the lengths are
unknown, in the graph none of them, and the axis is cut one before its end. -/
theorem C76_minus_one : unpack numpyPack (countUp [4]) [[-1], [-1]] "*".toList = .error .einops ∧
    ∃ g, traceUnpack .identity [.int 4] [[.sym (.var 0)], [.sym (.var 0)]] "*".toList = .ok g ∧
      runUnpack numpyPack g (fun _ => -1) (countUp [4]) = .ok [⟨[3], [0, 1, 2], rfl⟩, ⟨[1], [3], rfl⟩] :=
  ⟨by decide +kernel, _, rfl, by decide +kernel⟩

-- `UnknownSize` (tensorflow in eager mode with unknown dimensions): packing works, unpacking does not: an unknown length
-- is taken for -1, and the framework refuses it
example : Around twoDims 1 0 [2, 3] [.int 2, .unknown] := ⟨rfl, .cons rfl .nil, .nil⟩
example : tracePack [[.int 2, .unknown]] "b *".toList = .ok (⟨[[.int 2, .int (-1)]], 1⟩, [[.unknown]]) := by decide +kernel
example : traceUnpack .refuses [.int 2, .int 6] [[.unknown], [.unknown]] "b *".toList = .error .einops := by decide +kernel
example : traceUnpack .refuses [.int 2, .int 6] [[.int 2], [.unknown]] "b *".toList =
    .ok ⟨1, [(.int 0, .int 2, [.int 2, .int 2]), (.int 2, .int 6, [.int 2, .unknown])]⟩ := by decide +kernel
example : traceUnpack .refuses [.int 2, .unknown] [[.int (-1)], [.int 2]] "b *".toList = .error .type := by decide +kernel

-- `parse_shape`
example : parseShapeG .refuses (tensorflowShape [none, some 3, none, some 5]) "b _ h w".toList =
    .ok [("b".toList, .sym (.var 0)), ("h".toList, .sym (.var 2)), ("w".toList, .int 5)] := by decide +kernel
example : parseShapeG .refuses (tensorflowShape [none, some 3, none, some 5]) "b 3 ...".toList =
    .ok [("b".toList, .sym (.var 0))] := by decide +kernel
/-- a number is not compared with the value of a symbol: pytensor raises the exception for a wrong length, tensorflow a
TypeError, although the tensor of shape (2, 3) fits; an `UnknownSize` fits everything -/
theorem C76_parse_number : parseShape [2, 3] "b 3".toList = .ok [("b".toList, 2)] ∧
    parseShapeG .identity (kerasShape [none, none]) "b 3".toList = .error .runtime ∧
    parseShapeG .refuses (kerasShape [none, none]) "b 3".toList = .error .type ∧
    parseShapeG .refuses (tensorflowEagerShape [some 2, none]) "b 4".toList = .ok [("b".toList, .int 2)] := by
  decide +kernel
-- a static 1 in pytensor and tensorflow is a number
example : parseShapeG .identity (pytensorShape [none, some 1]) "b 1".toList = .ok [("b".toList, .sym (.var 0))] := by
  decide +kernel
-- the hypotheses
example : IsSide true false "b _ ... w".toList [.bare "b".toList, .bare "_".toList, .bare dots, .bare "w".toList] :=
  isSide_of (by decide) (by decide) (by decide) (by decide)
example : ∀ e ∈ [Elem.bare "b".toList, .bare "_".toList, .bare dots, .bare "w".toList], ∃ w, e.core = [w] ∧ ¬ IsNumber w := by
  intro e he
  simp only [List.mem_cons, List.not_mem_nil, or_false] at he
  rcases he with rfl | rfl | rfl | rfl <;> exact ⟨_, rfl, by decide⟩

end

end Einops
