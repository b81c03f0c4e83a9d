import Verif.Proofs.GraphCalls
import Verif.Props.Operations
import Verif.Props.Examples

/-!
# Graph mode

A graph is built once, from the shape that the framework reports before the tensor exists, and then runs for every tensor.
-/

namespace Einops

universe u

/-! ### Specification -/

/-- The sizes `shape'` that einops sees stand for the dimensions `shape`, when the symbols have the values `σ`. -/
def Reports (σ : Nat → Int) (shape : List Nat) (shape' : List GSize) : Prop :=
  List.Forall₂ (fun (d : Nat) g => GSize.value σ g = .ok (d : Int)) shape shape'

/-- the keyword sizes `kw'`, possibly symbols, have the values `kw` -/
def Denotes (σ : Nat → Int) (kw : List (Str × Size)) (kw' : List (Str × GSize)) : Prop :=
  List.Forall₂ (fun p q => p.1 = q.1 ∧ GSize.value σ q.2 = .ok p.2.val) kw kw'

/-- a tensor of this shape can be fed where the framework knows the dimensions `static` (`none`: not known) -/
def Conforms (static : List (Option Nat)) (shape : List Nat) : Prop :=
  List.Forall₂ (fun s d => ∀ n, s = some n → n = d) static shape

/-- symbol number `k` stands for dimension `k` -/
def DimValues (σ : Nat → Int) (shape : List Nat) : Prop := ∀ k (d : Nat), shape[k]? = some d → σ k = d

/-- the length of an axis given by a number or a keyword (0 if not given) -/
def given (kw : List (Str × Size)) : Axis → Int
  | .anon _ _ v => v
  | .str n => ((kw.find? fun p => p.1 = n).map fun p => p.2.val).getD 0

/-! ### Proofs -/

section
variable {α : Type u} {σ : Nat → Int}

theorem Reports.rep {shape : List Nat} {shape' : List GSize} (h : Reports σ shape shape') :
    List.Forall₂ (GSize.Rep False σ) (shape.map Size.ofNat) shape' := by
  rw [List.forall₂_map_left_iff]
  refine h.imp fun d g hg => ?_
  cases g with
  | int n =>
    simp only [GSize.value, Except.ok.injEq] at hg
    subst hg
    rfl
  | sym e =>
    simp only [GSize.value, Except.ok.injEq] at hg
    exact hg.symm
  | unknown => cases hg

theorem Denotes.rep {kw : List (Str × Size)} {kw' : List (Str × GSize)} (h : Denotes σ kw kw') {w : Prop}
    (hi : ∀ p ∈ kw, p.2.isInt = true) :
    List.Forall₂ (fun p q => p.1 = q.1 ∧ GSize.Rep w σ p.2 q.2) kw kw' := by
  induction h with
  | nil => exact .nil
  | @cons p q kw kw' hpq _ ih =>
    refine .cons ⟨hpq.1, ?_⟩ (ih fun p hp => hi p (by simp [hp]))
    have hint := hi p (by simp)
    obtain ⟨n, s⟩ := p
    obtain ⟨n', g⟩ := q
    obtain ⟨_, hv⟩ := hpq
    cases g with
    | int m =>
      simp only [GSize.value, Except.ok.injEq] at hv
      subst hv
      exact (show s = ⟨s.val, true⟩ by rw [← hint])
    | sym e =>
      simp only [GSize.value, Except.ok.injEq] at hv
      exact hv.symm
    | unknown => cases hv

theorem Denotes.names {kw : List (Str × Size)} {kw' : List (Str × GSize)} (h : Denotes σ kw kw') :
    kw.map Prod.fst = kw'.map Prod.fst := by
  induction h with
  | nil => rfl
  | cons h _ ih => rw [List.map_cons, List.map_cons, h.1, ih]

theorem Denotes.known {kw : List (Str × Size)} {kw' : List (Str × GSize)} (h : Denotes σ kw kw') :
    ∀ q ∈ kw', q.2 ≠ .unknown := by
  induction h with
  | nil => simp
  | @cons p q kw kw' hpq _ ih =>
    intro q' hq
    rcases List.mem_cons.1 hq with rfl | hq
    · intro e
      rw [e] at hpq
      cases hpq.2
    · exact ih q' hq

/-- the size with the value of a symbol -/
def GSize.size (σ : Nat → Int) : GSize → Size
  | .int n => ⟨n, true⟩
  | .sym e => ⟨e.eval σ, false⟩
  | .unknown => ⟨0, false⟩

theorem GSize.exact_size {g : GSize} (h : g ≠ .unknown) : g.Exact σ (g.size σ) := by
  cases g with
  | int => rfl
  | sym => rfl
  | unknown => exact absurd rfl h

theorem GSize.size_val {g : GSize} {n : Int} (h : g.value σ = .ok n) : (g.size σ).val = n := by
  cases g with
  | int => cases h; rfl
  | sym => cases h; rfl
  | unknown => cases h

theorem GSize.known_of_value {g : GSize} {n : Int} (h : g.value σ = .ok n) : g ≠ .unknown := by
  rintro rfl
  cases h

end

section
variable {α : Type u} [PyUnicode] {σ : Nat → Int} {E : ElemOps α} {b : Backend α} {pattern : Str} {red : Reduction α}
  {kw : List (Str × Size)} {kw' : List (Str × GSize)} {x y : Tensor α} {shape' : List GSize} {g : CookedG}

/-- a call that returns is traced, and the graph computes its result -/
theorem graph_of_ok (so : SetOrder) (hi : ∀ p ∈ kw, p.2.isInt = true) (hs : Reports σ x.shape shape') (hk : Denotes σ kw kw')
    (h : reduce b so (.one x) pattern red kw = .ok y) :
    ∃ g, traceCall so pattern red.kind shape' kw' = .ok g ∧ runGraph b g red σ x = .ok y := by
  simp only [reduce, resolveInput] at h
  unfold traceCall
  rw [← hk.names, ← List.Forall₂.length_eq hs]
  cases hr : prepareRecipe so pattern red.kind (kw.map Prod.fst) x.ndim with
  | error e => rw [hr] at h; cases h
  | ok r =>
    rw [hr] at h
    rw [show x.shape.length = x.ndim from rfl, hr]
    simp only [applyRecipe] at h
    cases hc : reconstruct r (x.shape.map Size.ofNat) kw with
    | error e => rw [hc] at h; cases h
    | ok c =>
      rw [hc] at h
      rcases reconstruct_rep hs.rep (hk.rep hi) hc with ⟨hw, _⟩ | ⟨g, h1, h2⟩
      · exact hw.elim
      · refine ⟨g, h1, ?_⟩
        exact (runGraph_rep h2 red h).resolve_left fun h => h.1

/-! ### C61 -/

/-- **C61** One graph for all tensors: whenever the call on numbers returns a tensor, the graph that was built from the
reported sizes returns this tensor. -/
theorem C61_graph (hell : '…' ∉ pattern) (hkw : IntKw kw) {so so' : SetOrder}
    (ht : traceCall so pattern red.kind shape' kw' = .ok g) (hs : Reports σ x.shape shape') (hk : Denotes σ kw kw')
    (h : reduce b so' (.one x) pattern red kw = .ok y) : runGraph b g red σ x = .ok y := by
  rw [C08_hash_order hell hkw.nodup b _ red so' so] at h
  obtain ⟨g', h1, h2⟩ := graph_of_ok so hkw.int hs hk h
  rw [ht] at h1
  cases h1
  exact h2

/-- **C61** Building the graph is only refused if the call is refused for every tensor and every value of the symbols. -/
theorem C61_traced (hell : '…' ∉ pattern) (hkw : IntKw kw) {so so' : SetOrder} {e : PyErr}
    (ht : traceCall so pattern red.kind shape' kw' = .error e) (hs : Reports σ x.shape shape') (hk : Denotes σ kw kw') :
    ∃ e', reduce b so' (.one x) pattern red kw = .error e' := by
  cases h : reduce b so' (.one x) pattern red kw with
  | error e' => exact ⟨e', rfl⟩
  | ok y =>
    rw [C08_hash_order hell hkw.nodup b _ red so' so] at h
    obtain ⟨g, h1, -⟩ := graph_of_ok so hkw.int hs hk h
    rw [ht] at h1
    cases h1

omit [PyUnicode] in
theorem given_eq {a : Axis} {s : Size} (h : knownSize kw a = some s) : s.val = given kw a := by
  cases a with
  | anon sd i v => cases h; rfl
  | str n =>
    have : ∀ kw : List (Str × Size), dictGet kw n = (kw.find? fun p => p.1 = n).map Prod.snd := by
      intro kw
      induction kw with
      | nil => rfl
      | cons p kw ih =>
        obtain ⟨m, t⟩ := p
        simp only [dictGet, List.find?_cons]
        by_cases hm : m = n
        · simp [hm]
        · simp [hm, ih]
    simp only [knownSize, this] at h
    cases hf : kw.find? fun p => p.1 = n with
    | none => rw [hf] at h; cases h
    | some p => rw [hf] at h; cases h; simp [given, hf]

omit [PyUnicode] in
theorem knownProd_given {g : List Axis} (h : ∀ a ∈ g, isKnown (kw.map Prod.fst) a = true) :
    (knownProd kw g).val = (g.map (given kw)).prod := by
  unfold knownProd
  rw [sizeProd_eq]
  show ((g.filterMap (knownSize kw)).map Size.val).prod = _
  congr 1
  induction g with
  | nil => rfl
  | cons a g ih =>
    have ha := h a (by simp)
    rw [← knownSize_isSome] at ha
    obtain ⟨s, hs⟩ := Option.isSome_iff_exists.1 ha
    rw [List.filterMap_cons_some hs, List.map_cons, List.map_cons, ih (fun b hb => h b (by simp [hb])), given_eq hs]

/-- **C61** What graph mode still checks: if no dimension is 0, the given lengths are positive, and every input group
without an axis of unknown length multiplies to its dimension, then the graph returns a tensor exactly when the call on
numbers does. -/
theorem C61_exact (hb : Modelled E b) (hell : '…' ∉ pattern) (hkw : IntKw kw) {so so' : SetOrder}
    (ht : traceCall so pattern red.kind shape' kw' = .ok g) (hs : Reports σ x.shape shape') (hk : Denotes σ kw kw')
    {GL GR : List Elem} (hp : IsPattern pattern GL GR) {L R : List (List Axis)} (hg : Groups GL GR x.ndim L R)
    (hpos : ∀ p ∈ kw, 0 < p.2.val) (hdim : ∀ d ∈ x.shape, 0 < d)
    (hfull : ∀ p ∈ L.zip x.shape, (∀ a ∈ p.1, isKnown (kw.map Prod.fst) a = true) → (p.1.map (given kw)).prod = p.2) :
    runGraph b g red σ x = .ok y ↔ reduce b so' (.one x) pattern red kw = .ok y := by
  refine ⟨fun h => ?_, C61_graph hell hkw ht hs hk⟩
  rw [C08_hash_order hell hkw.nodup b _ red so' so]
  -- the trace
  unfold traceCall at ht
  rw [← hk.names, ← List.Forall₂.length_eq hs] at ht
  rcases prepare_cases hp red.kind (kw.map Prod.fst) x.shape.length with ⟨ex, wf, hpr, hn, heq⟩ | ⟨_, heq⟩
  swap
  · rw [heq] at ht; cases ht
  rw [heq so] at ht
  simp only at ht
  obtain ⟨hexL, hexR⟩ := Groups.unique hp (sidesOK_ellipsis hpr.sides) hpr.groups hg
  -- sizes with a flag
  have hsS : List.Forall₂ (GSize.Exact σ) (shape'.map (GSize.size σ)) shape' := by
    rw [List.forall₂_map_left_iff, List.forall₂_same]
    intro g' hg'
    clear * - hs hg'
    unfold Reports at hs
    generalize x.shape = shape at hs
    induction hs with
    | nil => cases hg'
    | cons h _ ih =>
      rcases List.mem_cons.1 hg' with rfl | hg'
      · exact GSize.exact_size (GSize.known_of_value h)
      · exact ih hg'
  have hkS : List.Forall₂ (fun p q => p.1 = q.1 ∧ GSize.Exact σ p.2 q.2) (kw'.map fun q => (q.1, q.2.size σ)) kw' := by
    rw [List.forall₂_map_left_iff, List.forall₂_same]
    intro q hq
    exact ⟨rfl, GSize.exact_size (hk.known q hq)⟩
  have hvS : (x.shape.map Size.ofNat).map Size.val = (shape'.map (GSize.size σ)).map Size.val := by
    clear * - hs
    unfold Reports at hs
    generalize x.shape = shape at hs
    induction hs with
    | nil => rfl
    | cons h _ ih =>
      simp only [List.map_cons, GSize.size_val h, ih]
      rfl
  have hvK : SameKw kw (kw'.map fun q => (q.1, q.2.size σ)) := by
    clear * - hk
    unfold SameKw
    induction hk with
    | nil => rfl
    | cons h _ ih =>
      simp only [List.map_cons, GSize.size_val h.2, h.1, ih]
  have hboth := reconstruct_both (recipeOf so ex (kw.map Prod.fst)) hsS hkS
  rw [ht, hvK.names] at hboth
  have hlen : x.shape.length = ex.left.length := by
    obtain ⟨_, _, _, _, hl⟩ := hpr.groups
    exact hl.symm
  rw [reconstruct_recipeOf so ex wf _ (shape'.map (GSize.size σ)) (by rw [← hvK.names]; exact hkw.nodup)
    (by rw [← hvK.names]; exact hn) (by rw [← hvK.names]; exact hpr.unknowns)
    (by rw [List.length_map, ← List.Forall₂.length_eq hs, hlen])] at hboth
  cases hfe : firstErr (kw'.map fun q => (q.1, q.2.size σ)) ex.left (shape'.map (GSize.size σ)) with
  | some e => rw [hfe] at hboth; cases hboth
  | none =>
    rw [hfe] at hboth
    simp only at hboth
    obtain ⟨c, hc⟩ : ∃ c, c = cookedOf ex (kw'.map fun q => (q.1, q.2.size σ)) (shape'.map (GSize.size σ)) := ⟨_, rfl⟩
    rw [← hc] at hboth
    have hex : g.Exact σ c := by cases hboth; assumption
    rw [runGraph_exact b hex] at h
    -- the numbers pass the tests
    have hnone : firstErr kw ex.left (x.shape.map Size.ofNat) = none := by
      by_cases hany : ex.left.any (fun g => decide (g.length ≠ 1)) = true
      · have hinit : c.initShapes = some (ex.left.flatten.map
            (axisSize (kw'.map fun q => (q.1, q.2.size σ)) ex.left (shape'.map (GSize.size σ)))) := by
          rw [hc]
          simp only [cookedOf]
          rw [if_pos hany]
        unfold applyCooked applyStages at h
        obtain ⟨t1, h1, -⟩ := bind_ok h
        rw [hinit] at h1
        simp only [optReshape, List.map_map] at h1
        have hvals : ex.left.flatten.map (Size.val ∘ axisSize (kw'.map fun q => (q.1, q.2.size σ)) ex.left
            (shape'.map (GSize.size σ))) = ex.left.flatten.map fun a => (axisSize kw ex.left (x.shape.map Size.ofNat) a).val := by
          apply List.map_congr_left
          intro a _
          exact (axisSize_same hvK ex.left hvS a).symm
        rw [hvals] at h1
        have hnum : ∀ sd i v, Axis.anon sd i v ∈ ex.left.flatten → 0 < v := fun sd i v hv => number_pos hp hpr.groups hv
        have hfull' : ∀ p ∈ ex.left.zip x.shape, p.1.all (isKnown (kw.map Prod.fst)) = true →
            (knownProd kw p.1).val = p.2 := by
          intro p hp' hall
          rw [knownProd_given (List.all_eq_true.1 hall)]
          rw [hexL] at hp'
          exact hfull p hp' (List.all_eq_true.1 hall)
        have hnonneg : ∀ a ∈ ex.left.flatten, 0 ≤ (axisSize kw ex.left (x.shape.map Size.ofNat) a).val := by
          intro a ha
          obtain ⟨gr, hgr, hagr⟩ := List.mem_flatten.1 ha
          cases hka : knownSize kw a with
          | some s =>
            rw [axisSize_known hka]
            cases a with
            | anon sd i v => cases hka; simp
            | str n => exact (hpos _ (dictGet_mem hka)).le
          | none =>
            obtain ⟨i, hi, rfl⟩ := List.getElem_of_mem hgr
            have hz : (ex.left[i], x.shape[i]'(by omega)) ∈ ex.left.zip x.shape := by
              rw [List.mem_iff_getElem]
              exact ⟨i, by simp; omega, by simp⟩
            rw [axisSize_unknown wf.left_nodup (mem_zip_ofNat hz) hagr hka]
            exact Int.fdiv_nonneg (by simp [Size.ofNat]) (knownProd_pos hpos (fun sd j v hv =>
              hnum sd j v (List.mem_flatten.2 ⟨_, hgr, hv⟩))).le
        refine reshape_detects hlen wf.left_nodup hkw.int hpos hnum hdim hpr.unknowns hfull' ?_
        have hnat : ex.left.flatten.map (fun a => (axisSize kw ex.left (x.shape.map Size.ofNat) a).val) =
            (ex.left.flatten.map fun a => (axisSize kw ex.left (x.shape.map Size.ofNat) a).val.toNat).map Int.ofNat := by
          rw [List.map_map]
          apply List.map_congr_left
          intro a ha
          exact (Int.toNat_of_nonneg (hnonneg a ha)).symm
        rw [hnat, hb.lawful.reshape] at h1
        unfold Tensor.withShape at h1
        split at h1
        · rename_i hq
          rw [← prod_toNat _ _ hnonneg]
          exact_mod_cast hq
        · cases h1
      · rw [firstErr_none]
        intro p hp'
        obtain ⟨d, hd, hz⟩ := zip_map_ofNat hp'
        obtain ⟨gr, s⟩ := p
        obtain rfl : s = Size.ofNat d := hd
        have hgr : gr ∈ ex.left := (List.of_mem_zip hz).1
        have h1 : gr.length = 1 := by
          by_contra hc'
          exact hany (List.any_eq_true.2 ⟨gr, hgr, by simpa using hc'⟩)
        obtain ⟨a, rfl⟩ := List.length_eq_one_iff.1 h1
        unfold groupErr
        simp only [knownProd_isInt hkw.int, Size.ofNat, Bool.and_self, if_true]
        by_cases hall : [a].all (isKnown (kw.map Prod.fst)) = true
        · rw [if_pos hall, knownProd_given (List.all_eq_true.1 hall)]
          rw [hexL] at hz
          have := hfull _ hz (List.all_eq_true.1 hall)
          exact if_neg (by rw [this]; simp)
        · rw [if_neg hall]
          have hka : knownSize kw a = none := by
            rw [knownSize_none]
            simpa using hall
          have hkp : (knownProd kw [a]).val = 1 := by simp [knownProd, hka, sizeProd]
          rw [hkp]
          simp
    -- and then both do the same
    simp only [reduce, resolveInput]
    rw [show x.ndim = x.shape.length from rfl, heq so]
    simp only [applyRecipe]
    have hrec := reconstruct_recipeOf so ex wf kw (x.shape.map Size.ofNat) hkw.nodup hn hpr.unknowns (by simpa using hlen)
    rw [hnone] at hrec
    rw [hrec, ← h]
    simp only
    unfold applyCooked
    apply applyStages_values
    rw [hc]
    refine ⟨?_, rfl, rfl, ?_, ?_, ?_⟩
    · simp only [cookedOf]
      split
      · simp only [Option.map_some, List.map_map]
        congr 1
        apply List.map_congr_left
        intro a _
        exact axisSize_same hvK ex.left hvS a
      · rfl
    · simp only [cookedOf, List.map_map]
      apply List.map_congr_left
      intro p _
      simp only [Function.comp, axisSize_same hvK ex.left hvS p.1]
    · simp only [cookedOf]
      split
      · simp only [Option.map_some, List.map_map]
        congr 1
        apply List.map_congr_left
        intro gr _
        simp only [Function.comp, sizeProd_eq, List.map_map]
        congr 1
        apply List.map_congr_left
        intro a _
        exact axisSize_same hvK ex.left hvS a
      · rfl
    · simp only [cookedOf, List.length_map]

/-! ### what the frameworks report -/

omit [PyUnicode] in
theorem reports_zipIdx {shape : List Nat} {static : List (Option Nat)} (h : Conforms static shape)
    {f : Option Nat × Nat → GSize} {k : Nat} (hσ : ∀ i (d : Nat), shape[i]? = some d → σ (k + i) = d)
    (hf : ∀ s i (d : Nat), (∀ n, s = some n → n = d) → σ i = d → (f (s, i)).value σ = .ok (d : Int)) :
    Reports σ shape ((static.zipIdx k).map f) := by
  unfold Conforms at h
  unfold Reports
  induction h generalizing k with
  | nil => exact .nil
  | @cons s d _ _ hsd _ ih =>
    rw [List.zipIdx_cons, List.map_cons]
    refine .cons (hf s k d hsd (by simpa using hσ 0 d rfl)) (ih fun i d hd => ?_)
    have := hσ (i + 1) d (by simpa using hd)
    rw [← this]
    congr 1
    omega

omit [PyUnicode] in
/-- **C61** The sizes reported by tensorflow in graph mode, by keras and by pytensor stand for the dimensions of every
tensor that conforms to the static shape.  (tensorflow reports a static 0 as a symbol.) -/
theorem C61_frameworks {shape : List Nat} {static : List (Option Nat)} (h : Conforms static shape) (hσ : DimValues σ shape) :
    Reports σ shape (tensorflowShape static) ∧ Reports σ shape (kerasShape static) ∧
      Reports σ shape (pytensorShape static) := by
  have hσ' : ∀ i (d : Nat), shape[i]? = some d → σ (0 + i) = d := by
    intro i d hd
    rw [Nat.zero_add]
    exact hσ i d hd
  refine ⟨reports_zipIdx h hσ' ?_, reports_zipIdx h hσ' ?_, reports_zipIdx h hσ' ?_⟩
  · intro s i d hs hi
    match s with
    | none => simp [GSize.value, SymExpr.eval, hi]
    | some 0 => simp [GSize.value, SymExpr.eval, hi]
    | some (n + 1) => simp [GSize.value, ← hs _ rfl]
  · intro s i d hs hi
    simp [GSize.value, SymExpr.eval, hi]
  · intro s i d hs hi
    match s with
    | none => simp [GSize.value, SymExpr.eval, hi]
    | some n => simp [GSize.value, ← hs _ rfl]

/-! ### `UnknownSize` -/

/-- **C61** tensorflow in eager mode with unknown dimensions (`UnknownSize`): if the call on numbers returns a tensor, the
call is not refused by einops, and either the framework refuses an `UnknownSize` or this tensor is the result. -/
theorem C61_unknown (hell : '…' ∉ pattern) (hkw : IntKw kw) (so so' : SetOrder) {static : List (Option Nat)}
    (hs : Conforms static x.shape) (hk : Denotes σ kw kw') (h : reduce b so' (.one x) pattern red kw = .ok y) :
    ∃ g, traceCall so pattern red.kind (tensorflowEagerShape static) kw' = .ok g ∧
      (runGraph b g red σ x = .ok y ∨ runGraph b g red σ x = .error .backend) := by
  rw [C08_hash_order hell hkw.nodup b _ red so' so] at h
  have hp : ∃ GL GR, IsPattern pattern GL GR := by
    rcases reduce_cases b x hell red hkw.nodup with ⟨GL, GR, _, hp, _⟩ | ⟨_, e, _, he⟩
    · exact ⟨GL, GR, hp⟩
    · rw [he so] at h; cases h
  obtain ⟨GL, GR, hp⟩ := hp
  simp only [reduce, resolveInput] at h
  unfold traceCall
  have hl : (tensorflowEagerShape static).length = x.ndim := by
    rw [tensorflowEagerShape, List.length_map, List.Forall₂.length_eq hs]
    rfl
  have hrep : List.Forall₂ (GSize.Rep True σ) (x.shape.map Size.ofNat) (tensorflowEagerShape static) := by
    unfold Conforms at hs
    unfold tensorflowEagerShape
    rw [List.forall₂_map_left_iff, List.forall₂_map_right_iff]
    refine (hs.imp (fun s d hsd => ?_)).flip
    cases s with
    | none => exact trivial
    | some n => exact (show Size.ofNat d = ⟨(n : Int), true⟩ by rw [hsd n rfl]; rfl)
  rw [← hk.names, hl]
  rcases prepare_cases hp red.kind (kw.map Prod.fst) x.ndim with ⟨ex, wf, hpr, hn, heq⟩ | ⟨_, heq⟩
  swap
  · rw [heq] at h; cases h
  rw [heq so] at h ⊢
  simp only [applyRecipe] at h
  cases hc : reconstruct (recipeOf so ex (kw.map Prod.fst)) (x.shape.map Size.ofNat) kw with
  | error e => rw [hc] at h; cases h
  | ok c =>
    rw [hc] at h
    rcases reconstruct_rep hrep (hk.rep hkw.int) hc with ⟨_, hw⟩ | ⟨g, h1, h2⟩
    · exact absurd hw (reconstructG_type hk.known (recipeOf_disjoint so _))
    · refine ⟨g, h1, ?_⟩
      rcases runGraph_rep h2 red h with ⟨_, h3⟩ | h3
      · exact .inr h3
      · exact .inl h3

/-- **C61** ... and a pattern of which neither side has parentheses (or units), and that adds no axes, works with unknown
dimensions. -/
theorem C61_unknown_plain (hell : '…' ∉ pattern) (hkw : IntKw kw) {so so' : SetOrder} {static : List (Option Nat)}
    (hs : Conforms static x.shape) (hk : Denotes σ kw kw') {GL GR : List Elem} (hp : IsPattern pattern GL GR)
    {L R : List (List Axis)} (hg : Groups GL GR x.ndim L R) (hL : ∀ g ∈ L, g.length = 1) (hR : ∀ g ∈ R, g.length = 1)
    (hsub : ∀ a ∈ R.flatten, a ∈ L.flatten) (ht : traceCall so pattern red.kind (tensorflowEagerShape static) kw' = .ok g)
    (h : reduce b so' (.one x) pattern red kw = .ok y) : runGraph b g red σ x = .ok y := by
  obtain ⟨g', h1, h2⟩ := C61_unknown hell hkw so so' hs hk h
  rw [ht] at h1
  cases h1
  rw [C08_hash_order hell hkw.nodup b _ red so' so] at h
  have hl : (tensorflowEagerShape static).length = x.ndim := by
    rw [tensorflowEagerShape, List.length_map, List.Forall₂.length_eq hs]
    rfl
  have hrep : List.Forall₂ (GSize.Rep True σ) (x.shape.map Size.ofNat) (tensorflowEagerShape static) := by
    unfold Conforms at hs
    unfold tensorflowEagerShape
    rw [List.forall₂_map_left_iff, List.forall₂_map_right_iff]
    refine (hs.imp (fun s d hsd => ?_)).flip
    cases s with
    | none => exact trivial
    | some n => exact (show Size.ofNat d = ⟨(n : Int), true⟩ by rw [hsd n rfl]; rfl)
  simp only [reduce, resolveInput] at h
  unfold traceCall at ht
  rw [← hk.names, hl] at ht
  rcases prepare_cases hp red.kind (kw.map Prod.fst) x.ndim with ⟨ex, wf, hpr, hn, heq⟩ | ⟨_, heq⟩
  swap
  · rw [heq] at h; cases h
  rw [heq so] at h ht
  simp only [applyRecipe] at h ht
  obtain ⟨hexL, hexR⟩ := Groups.unique hp (sidesOK_ellipsis hpr.sides) hpr.groups hg
  obtain ⟨_, _, _, _, hlen⟩ := hpr.groups
  have hrec := reconstruct_recipeOf so ex wf kw (x.shape.map Size.ofNat) hkw.nodup hn hpr.unknowns
    (by rw [List.length_map, hlen]; rfl)
  cases hfe : firstErr kw ex.left (x.shape.map Size.ofNat) with
  | some e => rw [hfe] at hrec; rw [hrec] at h; cases h
  | none =>
    rw [hfe] at hrec
    simp only at hrec
    rw [hrec] at h
    rcases reconstruct_rep hrep (hk.rep hkw.int) hrec with ⟨_, hw⟩ | ⟨g', h3, h4⟩
    · rw [hw] at ht; cases ht
    · rw [ht] at h3
      cases h3
      have hi : (cookedOf ex kw (x.shape.map Size.ofNat)).initShapes = none := by
        simp only [cookedOf]
        rw [if_neg]
        rw [hexL, List.any_eq_true]
        rintro ⟨gr, h5, h6⟩
        simp [hL gr h5] at h6
      have hf : (cookedOf ex kw (x.shape.map Size.ofNat)).finalShapes = none := by
        simp only [cookedOf]
        rw [if_neg]
        rw [hexR, List.any_eq_true]
        rintro ⟨gr, h5, h6⟩
        simp [hR gr h5] at h6
      have ha : (cookedOf ex kw (x.shape.map Size.ofNat)).addedAxes = [] := by
        simp only [cookedOf]
        rw [List.map_eq_nil_iff, List.filter_eq_nil_iff]
        intro p hp'
        have h5 := List.fst_mem_of_mem_zipIdx hp'
        rw [hexR] at h5
        have h6 := hsub _ h5
        rw [← hexL, ← wf.leftIds_iff] at h6
        simpa using h6
      obtain ⟨hin, hpe, hre, had, hfi, hna⟩ := h4
      rw [hi] at hin
      rw [hf] at hfi
      rw [ha] at had
      have e1 : g.initShapes = none := by
        generalize g.initShapes = o at hin
        cases hin
        rfl
      have e2 : g.finalShapes = none := by
        generalize g.finalShapes = o at hfi
        cases hfi
        rfl
      have e3 : g.addedAxes = [] := List.forall₂_nil_left_iff.1 had
      rw [← h]
      show runGraph b g red σ x = applyCooked b (cookedOf ex kw (x.shape.map Size.ofNat)) x red
      unfold runGraph applyCooked applyStages
      rw [e1, e2, e3, hi, hf, ha, hpe, hre]
      rfl

end

/-! ### Examples, and what graph mode does not check -/

section
attribute [local instance] asciiUnicode

/-- trace and run -/
def graphCall (shape : List GSize) (pattern : String) (kw : List (Str × GSize)) (x : Tensor Int) : Py (Tensor Int) :=
  match traceCall idOrder pattern.toList (.name "rearrange".toList) shape kw with
  | .error e => .error e
  | .ok g => runGraph (numpyBackend intOps true) g (.name "rearrange".toList) (fun k => (x.shape.getD k 0 : Nat)) x

-- one graph with a symbolic first dimension, run for two tensors
example : traceCall idOrder "(a b) c -> b (c a)".toList (.name "rearrange".toList) (tensorflowShape [none, some 3])
      [("a".toList, .int 2)] =
    .ok ⟨some [.int 2, .sym (.fdiv (.var 0) (.int 2)), .int 3], some [1, 2, 0], [], [],
      some [.sym (.mul (.int 1) (.fdiv (.var 0) (.int 2))), .int 6], 3⟩ := by decide +kernel
example : graphCall (tensorflowShape [none, some 3]) "(a b) c -> b (c a)" [("a".toList, .int 2)] t43 =
    rearrange (numpyBackend intOps true) idOrder (.one t43) "(a b) c -> b (c a)".toList [kwInt "a" 2] := by decide +kernel
example : graphCall (tensorflowShape [none, some 3]) "(a b) c -> b (c a)" [("a".toList, .int 2)] t23 =
    rearrange (numpyBackend intOps true) idOrder (.one t23) "(a b) c -> b (c a)".toList [kwInt "a" 2] := by decide +kernel
-- the hypotheses
example : Conforms [none, some 3] t43.shape :=
  .cons (by simp) (.cons (by rintro n ⟨⟩; rfl) .nil)
example : DimValues (fun k => (t43.shape.getD k 0 : Nat)) t43.shape := by
  intro k d h
  simp only [List.getD_eq_getElem?_getD, h, Option.getD_some]
example : Denotes (fun _ => 0) [kwInt "a" 2] [("a".toList, .int 2)] := .cons ⟨rfl, rfl⟩ .nil
-- a wrong division is found by the reshape
example : graphCall (kerasShape [none, none]) "(a b) c -> b (c a)" [("a".toList, .int 3)] t43 = .error .backend := by
  decide +kernel
-- a static 0 is a symbol for tensorflow
example : tensorflowShape [some 0, some 3] = [.sym (.var 0), .int 3] := rfl
-- `UnknownSize`: transposing works, composing is left to the framework, which refuses
example : graphCall (tensorflowEagerShape [none, some 3]) "a b -> b a" [] t43 =
    rearrange (numpyBackend intOps true) idOrder (.one t43) "a b -> b a".toList [] := by decide +kernel
example : graphCall (tensorflowEagerShape [none, some 3]) "a b -> (b a)" [] t43 = .error .backend := by decide +kernel
-- dividing by an `UnknownSize` would be a TypeError
example : GSize.fdiv (.int 4) .unknown = .error .type := rfl

/-- Not checked in graph mode, 1: a keyword size for an axis that is a whole dimension. -/
theorem C61_unchecked :
    graphCall (kerasShape [none, none]) "a b -> b a" [("a".toList, .int 5)] t43 =
      rearrange (numpyBackend intOps true) idOrder (.one t43) "a b -> b a".toList [] ∧
    rearrange (numpyBackend intOps true) idOrder (.one t43) "a b -> b a".toList [kwInt "a" 5] = .error .einops := by
  decide +kernel

/-- Not checked in graph mode, 2: two groups whose lengths are all given and are wrong, but with the right product; the
result mixes up elements, the call on numbers raises an EinopsError. -/
theorem C61_unchecked_groups :
    graphCall (kerasShape [none, none]) "(a b) (c d) -> (c d) (a b)"
        [("a".toList, .int 1), ("b".toList, .int 3), ("c".toList, .int 2), ("d".toList, .int 2)] t43 =
      rearrange (numpyBackend intOps true) idOrder (.one ⟨[3, 4], t43.data, by decide⟩) "a b -> b a".toList [] ∧
    rearrange (numpyBackend intOps true) idOrder (.one t43) "(a b) (c d) -> (c d) (a b)".toList
        [kwInt "a" 1, kwInt "b" 3, kwInt "c" 2, kwInt "d" 2] = .error .einops := by
  decide +kernel

/-- Not checked in graph mode, 3 (this is why `C61_exact` asks for dimensions that are not 0): with an empty tensor the
reshape accepts a wrong division. -/
theorem C61_unchecked_empty :
    graphCall (kerasShape [none, none]) "(a b) c -> a b c" [("a".toList, .int 2)] ⟨[3, 0], [], rfl⟩ =
      .ok ⟨[2, 1, 0], [], rfl⟩ ∧
    rearrange (numpyBackend intOps true) idOrder (.one ⟨[3, 0], [], rfl⟩) "(a b) c -> a b c".toList [kwInt "a" 2] =
      .error .einops := by
  decide +kernel

-- the hypotheses of `C61_exact` for the call above
example : IsPattern "(a b) c -> b (c a)".toList [.paren ["a".toList, "b".toList], .bare "c".toList]
    [.bare "b".toList, .paren ["c".toList, "a".toList]] :=
  ⟨"(a b) c ".toList, " b (c a)".toList, by decide, isSide_of (by decide) (by decide) (by decide) (by decide),
    isSide_of (by decide) (by decide) (by decide) (by decide)⟩
example : Groups [.paren ["a".toList, "b".toList], .bare "c".toList] [.bare "b".toList, .paren ["c".toList, "a".toList]] 2
    [[.str "a".toList, .str "b".toList], [.str "c".toList]] [[.str "b".toList], [.str "c".toList, .str "a".toList]] :=
  ⟨0, by decide, by decide, by decide, by decide⟩
example : ∀ p ∈ ([[.str "a".toList, .str "b".toList], [.str "c".toList]] : List (List Axis)).zip t43.shape,
    (∀ a ∈ p.1, isKnown ([kwInt "a" 2].map Prod.fst) a = true) → (p.1.map (given [kwInt "a" 2])).prod = p.2 := by
  decide

end

end Einops
