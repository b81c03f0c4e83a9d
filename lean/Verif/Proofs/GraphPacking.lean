import Verif.GraphPacking
import Verif.Props.Graph
import Verif.Props.Packing
import Verif.Props.Shapes
import Verif.Proofs.UnpackExact
import Mathlib.Algebra.Group.Int.Units

/-! `parse_shape`, `pack` and `unpack` on sizes that are symbols. -/

namespace Einops

universe u

section
variable {α : Type u} {σ : Nat → Int} {f : SymEq}

/-- the sizes `gs` have the values `ns` -/
def Values (σ : Nat → Int) (ns : List Int) (gs : List GSize) : Prop :=
  List.Forall₂ (fun n g => GSize.value σ g = .ok n) ns gs

theorem Reports.values {shape : List Nat} {shape' : List GSize} (h : Reports σ shape shape') :
    Values σ (shape.map Int.ofNat) shape' := by
  unfold Values
  rw [List.forall₂_map_left_iff]
  exact h

theorem Values.mapE {ns : List Int} {gs : List GSize} (h : Values σ ns gs) : mapE (GSize.value σ) gs = .ok ns := by
  rw [mapE_iff]
  exact h.flip

theorem forall₂_take {A B : Type*} {R : A → B → Prop} {l : List A} {m : List B} (h : List.Forall₂ R l m) (k : Nat) :
    List.Forall₂ R (l.take k) (m.take k) := List.forall₂_take k h

theorem forall₂_getD {A B : Type*} {R : A → B → Prop} {l : List A} {m : List B} (h : List.Forall₂ R l m) {a : A} {b : B}
    (hd : R a b) (k : Nat) : R (l.getD k a) (m.getD k b) := by
  induction h generalizing k with
  | nil => simpa using hd
  | cons hab _ ih =>
    cases k with
    | zero => simpa using hab
    | succ k => simpa using ih k

theorem forall₂_set {A B : Type*} {R : A → B → Prop} {l : List A} {m : List B} (h : List.Forall₂ R l m) {a : A} {b : B}
    (hd : R a b) (k : Nat) : List.Forall₂ R (l.set k a) (m.set k b) := by
  induction h generalizing k with
  | nil => exact .nil
  | cons hab ht ih =>
    cases k with
    | zero => exact .cons hd ht
    | succ k => exact .cons hab (ih k)

/-! ### Arithmetic -/

theorem GSize.value_mul {a b : GSize} {m n : Int} (ha : a.value σ = .ok m) (hb : b.value σ = .ok n) :
    (a.mul b).value σ = .ok (m * n) := by
  cases a <;> cases b <;> cases ha <;> cases hb <;> rfl

theorem GSize.value_add {a b : GSize} {m n : Int} (ha : a.value σ = .ok m) (hb : b.value σ = .ok n) :
    ∃ c, a.add b = .ok c ∧ c.value σ = .ok (m + n) := by
  cases a <;> cases b <;> cases ha <;> cases hb <;> exact ⟨_, rfl, rfl⟩

theorem GSize.value_sub {a b : GSize} {m n : Int} (ha : a.value σ = .ok m) (hb : b.value σ = .ok n) :
    ∃ c, a.sub b = .ok c ∧ c.value σ = .ok (m - n) := by
  cases a <;> cases b <;> cases ha <;> cases hb <;> exact ⟨_, rfl, rfl⟩

theorem Values.prod {ns : List Int} {gs : List GSize} (h : Values σ ns gs) : (gsizeProd gs).value σ = .ok (pyProd ns) := by
  have : ∀ (m : Int) (g : GSize), g.value σ = .ok m →
      (gs.foldl GSize.mul g).value σ = .ok (ns.foldl (fun r i => r * i) m) := by
    induction h with
    | nil => exact fun m g hg => hg
    | cons hd _ ih => exact fun m g hg => ih _ _ (GSize.value_mul hg hd)
  exact this _ _ rfl

/-! ### `parse_shape` -/

/-- the dictionaries agree -/
def SameDict (σ : Nat → Int) (d : List (Str × Nat)) (d' : List (Str × GSize)) : Prop :=
  List.Forall₂ (fun p q => p.1 = q.1 ∧ GSize.value σ q.2 = .ok (p.2 : Int)) d d'

theorem SameDict.set {d : List (Str × Nat)} {d' : List (Str × GSize)} (h : SameDict σ d d') (w : Str) {n : Nat} {g : GSize}
    (hg : g.value σ = .ok (n : Int)) : SameDict σ (dictSet d w n) (dictSet d' w g) := by
  induction h with
  | nil => exact .cons ⟨rfl, hg⟩ .nil
  | @cons p q d d' hpq ht ih =>
    obtain ⟨a, n'⟩ := p
    obtain ⟨a', g'⟩ := q
    obtain ⟨rfl, hv⟩ := hpq
    simp only [dictSet]
    by_cases ha : a = w
    · rw [if_pos ha, if_pos ha]
      exact .cons ⟨rfl, hg⟩ ht
    · rw [if_neg ha, if_neg ha]
      exact .cons ⟨rfl, hv⟩ ih

theorem GSize.eqInt_int {g : GSize} {n m : Int} (hv : g.value σ = .ok n) (h : g.eqInt f m = .ok true) : n = m := by
  cases g with
  | int k =>
    cases hv
    simpa [GSize.eqInt] using h
  | sym e => cases f <;> cases h
  | unknown => cases hv

theorem shapeStepG_sound {d : List (Str × Nat)} {d' r' : List (Str × GSize)} {a : CompAxis} {n : Nat} {g : GSize}
    (hd : SameDict σ d d') (hg : g.value σ = .ok (n : Int)) (h : shapeStepG f d' a g = .ok r') :
    ∃ r, shapeStep d a n = .ok r ∧ SameDict σ r r' := by
  unfold shapeStepG at h
  unfold shapeStep
  split at h
  · rename_i ha
    rw [ha]
    simp only
    cases hs : g.eqInt f 1 with
    | error e => rw [hs] at h; cases h
    | ok same =>
      rw [hs] at h
      cases same with
      | false => cases h
      | true =>
        cases h
        have := GSize.eqInt_int hg hs
        rw [if_neg (by omega)]
        exact ⟨d, rfl, hd⟩
  · rename_i w ha
    rw [ha]
    simp only
    by_cases hw : w = ['_']
    · rw [if_neg (by simpa using hw)] at h ⊢
      cases h
      exact ⟨d, rfl, hd⟩
    · rw [if_pos hw] at h ⊢
      cases h
      exact ⟨_, rfl, hd.set w hg⟩
  · rename_i _ _ v ha
    rw [ha]
    simp only
    cases hs : g.eqInt f v with
    | error e => rw [hs] at h; cases h
    | ok same =>
      rw [hs] at h
      cases same with
      | false => cases h
      | true =>
        cases h
        have := GSize.eqInt_int hg hs
        rw [if_neg (by omega)]
        exact ⟨d, rfl, hd⟩
  · cases h

theorem shapeLoopG_sound {as : List CompAxis} {shape : List Nat} {shape' : List GSize} (hs : Reports σ shape shape') :
    ∀ {d : List (Str × Nat)} {d' r' : List (Str × GSize)}, SameDict σ d d' → shapeLoopG f d' as shape' = .ok r' →
      ∃ r, shapeLoop d as shape = .ok r ∧ SameDict σ r r' := by
  induction hs generalizing as with
  | nil =>
    intro d d' r' hd h
    cases as <;> cases h <;> exact ⟨d, rfl, hd⟩
  | @cons n g shape shape' hng _ ih =>
    intro d d' r' hd h
    cases as with
    | nil => cases h; exact ⟨d, rfl, hd⟩
    | cons a as =>
      unfold shapeLoopG at h
      cases hst : shapeStepG f d' a g with
      | error e => rw [hst] at h; cases h
      | ok d1 =>
        rw [hst] at h
        obtain ⟨r1, h1, h2⟩ := shapeStepG_sound hd hng hst
        obtain ⟨r, h3, h4⟩ := ih h2 h
        exact ⟨r, by rw [shapeLoop, h1]; exact h3, h4⟩

/-- the axes of the composition are names or underscores -/
def OnlyNames (as : List CompAxis) : Prop := ∀ a ∈ as, ∃ w, a.axes = [.str w]

theorem shapeLoopG_names {as : List CompAxis} {shape : List Nat} {shape' : List GSize} (hs : Reports σ shape shape')
    (ha : OnlyNames as) :
    ∀ {d : List (Str × Nat)} {d' : List (Str × GSize)}, SameDict σ d d' →
      ∃ r r', shapeLoop d as shape = .ok r ∧ shapeLoopG f d' as shape' = .ok r' ∧ SameDict σ r r' := by
  induction hs generalizing as with
  | nil =>
    intro d d' hd
    exact ⟨d, d', by cases as <;> rfl, by cases as <;> rfl, hd⟩
  | @cons n g shape shape' hng _ ih =>
    intro d d' hd
    cases as with
    | nil => exact ⟨d, d', rfl, rfl, hd⟩
    | cons a as =>
      obtain ⟨w, hw⟩ := ha a (by simp)
      unfold shapeLoopG shapeLoop shapeStepG shapeStep
      rw [hw]
      simp only
      by_cases h : w = ['_']
      · rw [if_neg (by simpa using h), if_neg (by simpa using h)]
        exact ih (fun a h => ha a (by simp [h])) hd
      · rw [if_pos h, if_pos h]
        exact ih (fun a h => ha a (by simp [h])) (hd.set w hng)

theorem shapeLoopG_error {k : Nat} {a : CompAxis} {e : SymExpr} (ha : a.axes = [] ∨ ∃ s i v, a.axes = [.anon s i v]) :
    ∀ {as : List CompAxis} {shape' : List GSize} {d' : List (Str × GSize)}, as[k]? = some a → shape'[k]? = some (.sym e) →
      ∃ er, shapeLoopG f d' as shape' = .error er := by
  induction k with
  | zero =>
    intro as shape' d' h1 h2
    cases as with
    | nil => cases h1
    | cons a0 as =>
      cases shape' with
      | nil => cases h2
      | cons g shape' =>
        simp only [List.getElem?_cons_zero, Option.some.injEq] at h1 h2
        subst h1 h2
        rcases ha with ha | ⟨s, i, v, ha⟩ <;>
          · unfold shapeLoopG shapeStepG
            rw [ha]
            cases f
            · exact ⟨.runtime, rfl⟩
            · exact ⟨.type, rfl⟩
  | succ k ih =>
    intro as shape' d' h1 h2
    cases as with
    | nil => cases h1
    | cons a0 as =>
      cases shape' with
      | nil => cases h2
      | cons g shape' =>
        simp only [List.getElem?_cons_succ] at h1 h2
        unfold shapeLoopG
        cases shapeStepG f d' a0 g with
        | error er => exact ⟨er, rfl⟩
        | ok d1 => exact ih h1 h2

/-! ### `pack` -/

/-- The sizes `s` stand for the dimensions of a shape before and after those that a pattern packs. -/
structure Around (σ : Nat → Int) (before after : Nat) (shape : List Nat) (s : List GSize) : Prop where
  rank : s.length = shape.length
  front : Reports σ (shape.take before) (s.take before)
  back : Reports σ (shape.drop (shape.length - after)) (s.drop (s.length - after))

theorem Reports.around {shape : List Nat} {s : List GSize} (h : Reports σ shape s) (before after : Nat) :
    Around σ before after shape s where
  rank := h.length_eq.symm
  front := List.forall₂_take _ h
  back := by
    rw [show s.length = shape.length from h.length_eq.symm]
    exact List.forall₂_drop _ h

/-- the dimensions that are packed -/
def packedPart {A : Type} (before after : Nat) (s : List A) : List A := (s.take (s.length - after)).drop before

theorem packLoopG_shapes {before after minAxes : Nat} {shapes' ts ps' : List (List GSize)}
    (h : packLoopG before after minAxes shapes' = .ok (ts, ps')) : ps' = shapes'.map (packedPart before after) := by
  induction shapes' generalizing ts ps' with
  | nil => cases h; rfl
  | cons s shapes' ih =>
    simp only [packLoopG] at h
    split at h
    · cases h
    · cases hp : packLoopG before after minAxes shapes' with
      | error e => rw [hp] at h; cases h
      | ok v =>
        obtain ⟨ts1, ps1⟩ := v
        rw [hp] at h
        cases h
        rw [ih hp]
        rfl

theorem packLoop_graph {ops : PackOps α} {before after minAxes : Nat} {xs : List (Tensor α)} {shapes' : List (List GSize)}
    (hs : List.Forall₂ (fun x s => Around σ before after x.shape s) xs shapes') {ys : List (Tensor α)} {ps : List (List Nat)} :
    packLoop ops before after minAxes xs = .ok (ys, ps) ↔
      ps = xs.map (fun x => packedPart before after x.shape) ∧
      ∃ ts ps', packLoopG before after minAxes shapes' = .ok (ts, ps') ∧
        mapE (fun p : Tensor α × List GSize => reshapeG ops σ p.1 p.2) (xs.zip ts) = .ok ys := by
  induction hs generalizing ys ps with
  | nil =>
    simp only [packLoop, packLoopG]
    constructor
    · intro h
      cases h
      exact ⟨rfl, [], [], rfl, rfl⟩
    · rintro ⟨rfl, ts, ps', h1, h3⟩
      cases h1
      cases h3
      rfl
  | @cons x s xs shapes' hxs _ ih =>
    have hlen : s.length = x.shape.length := hxs.rank
    simp only [packLoop, packLoopG]
    rw [hlen]
    by_cases hl : x.shape.length < minAxes
    · rw [if_pos hl, if_pos hl]
      constructor
      · intro h; cases h
      · rintro ⟨_, _, _, h, _⟩; cases h
    rw [if_neg hl, if_neg hl]
    have htarget : reshapeG ops σ x (s.take before ++ .int (-1) :: s.drop (x.shape.length - after)) =
        ops.reshape x ((x.shape.take before).map Int.ofNat ++ -1 :: (x.shape.drop (x.shape.length - after)).map Int.ofNat) := by
      unfold reshapeG
      have h2 := Reports.values hxs.back
      rw [hlen] at h2
      rw [Values.mapE (σ := σ) (List.rel_append (Reports.values hxs.front) (.cons rfl h2))]
    constructor
    · intro h
      cases hr : ops.reshape x ((x.shape.take before).map Int.ofNat ++
          -1 :: (x.shape.drop (x.shape.length - after)).map Int.ofNat) with
      | error e => rw [hr] at h; cases h
      | ok y =>
        rw [hr] at h
        cases hp : packLoop ops before after minAxes xs with
        | error e => rw [hp] at h; cases h
        | ok v =>
          obtain ⟨ys1, ps1⟩ := v
          rw [hp] at h
          cases h
          obtain ⟨rfl, ts, ps', h1, h3⟩ := ih.1 hp
          rw [h1]
          refine ⟨rfl, _, _, rfl, ?_⟩
          simp only [List.zip_cons_cons, mapE, htarget, hr, h3]
    · rintro ⟨rfl, ts, ps', h1, h3⟩
      cases hp : packLoopG before after minAxes shapes' with
      | error e => rw [hp] at h1; cases h1
      | ok v =>
        obtain ⟨ts1, ps1⟩ := v
        rw [hp] at h1
        cases h1
        simp only [List.zip_cons_cons, mapE, htarget] at h3
        cases hr : ops.reshape x ((x.shape.take before).map Int.ofNat ++
          -1 :: (x.shape.drop (x.shape.length - after)).map Int.ofNat) with
        | error e => rw [hr] at h3; cases h3
        | ok y =>
          rw [hr] at h3
          simp only at h3
          cases hm : mapE (fun p : Tensor α × List GSize => reshapeG ops σ p.1 p.2) (xs.zip ts1) with
          | error e => rw [hm] at h3; cases h3
          | ok ys1 =>
            rw [hm] at h3
            cases h3
            rw [(ih (ys := ys1)).2 ⟨rfl, ts1, ps1, hp, hm⟩]
            rfl

theorem pack_around [PyUnicode] {ops : PackOps α} {pattern : Str} {before after : Nat} (hp : IsPackPattern pattern before after)
    {xs : List (Tensor α)} {shapes' : List (List GSize)}
    (hs : List.Forall₂ (fun x s => Around σ before after x.shape s) xs shapes') {y : Tensor α} {ps : List (List Nat)} :
    pack ops xs pattern = .ok (y, ps) ↔ ps = xs.map (fun x => packedPart before after x.shape) ∧
      ∃ g ps', tracePack shapes' pattern = .ok (g, ps') ∧ runPack ops g σ xs = .ok y := by
  unfold pack tracePack
  rw [analyzePattern_iff.2 ⟨hp, rfl⟩]
  simp only
  have hgraph := @packLoop_graph α σ ops before after (before + after) xs shapes' hs
  cases hs with
  | nil =>
    constructor
    · intro h; cases h
    · rintro ⟨_, _, _, h, _⟩; cases h
  | @cons x s xs shapes' hxs hs =>
    simp only
    constructor
    · intro h
      cases hl : packLoop ops before after (before + after) (x :: xs) with
      | error e => rw [hl] at h; cases h
      | ok v =>
        obtain ⟨ys, ps1⟩ := v
        rw [hl] at h
        simp only at h
        obtain ⟨h1, ts, ps', h2, h3⟩ := hgraph.1 hl
        cases hc : ops.concat ys before with
        | error e => rw [hc] at h; cases h
        | ok y' =>
          rw [hc] at h
          cases h
          rw [h2]
          refine ⟨h1, _, _, rfl, ?_⟩
          simp only [runPack, h3, hc]
    · rintro ⟨rfl, g, ps', h1, h2⟩
      cases hl : packLoopG before after (before + after) (s :: shapes') with
      | error e => rw [hl] at h1; cases h1
      | ok v =>
        obtain ⟨ts, ps1⟩ := v
        rw [hl] at h1
        cases h1
        simp only [runPack] at h2
        cases hm : mapE (fun p : Tensor α × List GSize => reshapeG ops σ p.1 p.2) ((x :: xs).zip ts) with
        | error e => rw [hm] at h2; cases h2
        | ok ys =>
          rw [hm] at h2
          rw [hgraph.2 ⟨rfl, ts, _, hl, hm⟩]
          simp only at h2 ⊢
          rw [h2]

theorem tracePack_shapes [PyUnicode] {pattern : Str} {before after : Nat} (hp : IsPackPattern pattern before after)
    {shapes' ps' : List (List GSize)} {g : PackGraph} (h : tracePack shapes' pattern = .ok (g, ps')) :
    ps' = shapes'.map (packedPart before after) := by
  unfold tracePack at h
  rw [analyzePattern_iff.2 ⟨hp, rfl⟩] at h
  cases shapes' with
  | nil => cases h
  | cons s shapes' =>
    simp only at h
    cases hl : packLoopG before after (before + after) (s :: shapes') with
    | error e => rw [hl] at h; cases h
    | ok v =>
      obtain ⟨ts, ps1⟩ := v
      rw [hl] at h
      cases h
      exact packLoopG_shapes hl

/-! ### `unpack` -/

/-- `n` is the value of `g`, and the framework says correctly whether it is -1 -/
def Faithful (f : SymEq) (σ : Nat → Int) (n : Int) (g : GSize) : Prop :=
  g.value σ = .ok n ∧ g.eqInt f (-1) = .ok (decide (n = -1))

theorem Faithful.list {ns : List Int} {gs : List GSize} (h : List.Forall₂ (Faithful f σ) ns gs) : Values σ ns gs :=
  h.imp fun _ _ h => h.1

theorem hasMinusOne_faithful {ns : List Int} {gs : List GSize} (h : List.Forall₂ (Faithful f σ) ns gs) :
    hasMinusOne f gs = .ok (decide (-1 ∈ ns)) := by
  induction h with
  | nil => rfl
  | @cons n g ns gs hd _ ih =>
    unfold hasMinusOne
    rw [hd.2]
    by_cases hn : n = -1
    · subst hn
      simp
    · simp [hn, ih, Ne.symm hn]

theorem prod_ne_minus_one {ns : List Int} (h : -1 ∉ ns) : pyProd ns ≠ -1 := by
  have key : ∀ (m : Int), m ≠ -1 → ns.foldl (fun r i => r * i) m ≠ -1 := by
    induction ns with
    | nil => exact fun m hm => hm
    | cons n ns ih =>
      intro m hm
      refine ih (fun h' => h (by simp [h'])) _ fun e => ?_
      have hn : n ≠ -1 := fun e' => h (by simp [e'])
      replace e : m * n = -1 := e
      rcases Int.eq_one_or_neg_one_of_mul_eq_neg_one e with rfl | rfl
      · omega
      · exact hm rfl
  exact key 1 (by decide)

theorem Faithful.mul {m n : Int} {a b : GSize} (ha : Faithful f σ m a) (hb : Faithful f σ n b) (h : m * n ≠ -1) :
    Faithful f σ (m * n) (a.mul b) := by
  refine ⟨GSize.value_mul ha.1 hb.1, ?_⟩
  rw [decide_eq_false h]
  obtain ⟨ha1, ha2⟩ := ha
  obtain ⟨hb1, hb2⟩ := hb
  cases f
  · cases a <;> cases b <;> cases ha1 <;> cases hb1 <;> simp [GSize.mul, GSize.eqInt, h]
  · cases a <;> cases b <;> cases ha1 <;> cases hb1 <;> 
      first | (simp [GSize.mul, GSize.eqInt, h]; done) | (cases ha2; done) | (cases hb2; done)

theorem prod_faithful {ns : List Int} {gs : List GSize} (h : List.Forall₂ (Faithful f σ) ns gs) (hn : -1 ∉ ns) :
    Faithful f σ (pyProd ns) (gsizeProd gs) := by
  have key : ∀ (m : Int) (g : GSize), m ≠ -1 → Faithful f σ m g →
      Faithful f σ (ns.foldl (fun r i => r * i) m) (gs.foldl GSize.mul g) := by
    induction h with
    | nil => exact fun m g _ hg => hg
    | @cons n g' ns gs hd _ ih =>
      intro m g hm hg
      have h1 : m * n ≠ -1 := by
        intro e
        have hn' : n ≠ -1 := fun e' => hn (by simp [e'])
        rcases Int.eq_one_or_neg_one_of_mul_eq_neg_one e with rfl | rfl
        · omega
        · exact hm rfl
      exact ih (fun h' => hn (by simp [h'])) _ _ h1 (hg.mul hd h1)
  exact key 1 (.int 1) (by decide) ⟨rfl, rfl⟩

theorem composed_faithful {ps : List (List Int)} {ps' : List (List GSize)}
    (h : List.Forall₂ (List.Forall₂ (Faithful f σ)) ps ps') :
    ∃ ls, mapE (composedLengthG f) ps' = .ok ls ∧ List.Forall₂ (Faithful f σ) (composedLengths ps) ls := by
  induction h with
  | nil => exact ⟨[], rfl, .nil⟩
  | @cons s s' ps ps' hs _ ih =>
    obtain ⟨ls, h1, h2⟩ := ih
    have : ∃ l, composedLengthG f s' = .ok l ∧ Faithful f σ (if -1 ∈ s then -1 else pyProd s) l := by
      unfold composedLengthG
      rw [hasMinusOne_faithful hs]
      by_cases hm : -1 ∈ s
      · rw [if_pos hm]
        simp only [hm, decide_true]
        exact ⟨_, rfl, rfl, rfl⟩
      · rw [if_neg hm]
        simp only [hm, decide_false]
        exact ⟨_, rfl, prod_faithful hs hm⟩
    obtain ⟨l, h3, h4⟩ := this
    refine ⟨l :: ls, by simp only [mapE, h3, h1], .cons h4 h2⟩

theorem flags_faithful {ns : List Int} {gs : List GSize} (h : List.Forall₂ (Faithful f σ) ns gs) :
    mapE (GSize.eqInt f (-1)) gs = .ok (ns.map fun n => decide (n = -1)) := by
  induction h with
  | nil => rfl
  | cons hd _ ih => simp only [mapE, hd.2, ih, List.map_cons]

theorem flags_count (ns : List Int) : (ns.map fun n => decide (n = -1)).count true = ns.count (-1) := by
  induction ns with
  | nil => rfl
  | cons n ns ih =>
    rw [List.map_cons, List.count_cons, List.count_cons, ih]
    by_cases h : n = -1 <;> simp [h]

theorem flags_index (ns : List Int) : (ns.map fun n => decide (n = -1)).idxOf true = ns.idxOf (-1) := by
  induction ns with
  | nil => rfl
  | cons n ns ih =>
    rw [List.map_cons, List.idxOf_cons, List.idxOf_cons, ih]
    by_cases h : n = -1
    · simp [h]
    · rw [decide_eq_false h, beq_false_of_ne h]
      rfl

theorem runLoop_values {B C : Type} {R : B → C → Prop} {step : B → List Int → List Int} {step' : C → List GSize → Py (List GSize)}
    (hstep : ∀ b c sp sp', R b c → Values σ sp sp' → ∃ r, step' c sp' = .ok r ∧ Values σ (step b sp) r)
    {bs : List B} {cs : List C} (hbc : List.Forall₂ R bs cs) :
    ∀ {sp : List Int} {sp' : List GSize}, Values σ sp sp' →
      ∃ r, runLoop step' sp' cs = .ok r ∧ Values σ (bs.foldl (fun sp b => step b sp) sp) r := by
  induction hbc with
  | nil => exact fun h => ⟨_, rfl, h⟩
  | @cons b c bs cs h1 _ ih =>
    intro sp sp' h
    obtain ⟨r, h2, h3⟩ := hstep b c sp sp' h1 h
    obtain ⟨r', h4, h5⟩ := ih h3
    exact ⟨r', by rw [runLoop, h2]; exact h4, h5⟩

theorem putSum_values {i j : Nat} {d : Int} {g : GSize} {sp : List Int} {sp' : List GSize} (hd : g.value σ = .ok d)
    (h : Values σ sp sp') : ∃ r, putSum i j g sp' = .ok r ∧ Values σ (sp.set i (sp.getD j 0 + d)) r := by
  obtain ⟨c, h1, h2⟩ := GSize.value_add (σ := σ) (forall₂_getD h (a := 0) (b := .int 0) rfl j) hd
  exact ⟨_, by rw [putSum, h1], forall₂_set h h2 i⟩

theorem putDiff_values {i j : Nat} {d : Int} {g : GSize} {sp : List Int} {sp' : List GSize} (hd : g.value σ = .ok d)
    (h : Values σ sp sp') : ∃ r, putDiff i j g sp' = .ok r ∧ Values σ (sp.set i (sp.getD j 0 - d)) r := by
  obtain ⟨c, h1, h2⟩ := GSize.value_sub (σ := σ) (forall₂_getD h (a := 0) (b := .int 0) rfl j) hd
  exact ⟨_, by rw [putDiff, h1], forall₂_set h h2 i⟩

theorem forall₂_zipIdx {A B : Type*} {R : A → B → Prop} {l : List A} {m : List B} (h : List.Forall₂ R l m) (k : Nat) :
    List.Forall₂ (fun p q => R p.1 q.1 ∧ p.2 = q.2) (l.zipIdx k) (m.zipIdx k) := by
  induction h generalizing k with
  | nil => exact .nil
  | cons hd _ ih => exact .cons ⟨hd, rfl⟩ (ih _)

theorem splitPositions_values {n : Nat} {g : GSize} (hg : g.value σ = .ok (n : Int)) {ls : List Int} {ls' : List GSize}
    (h : Values σ ls ls') :
    ∃ r, splitPositionsG g ls' (ls.map fun n => decide (n = -1)) = .ok r ∧ Values σ (splitPositions n ls) r := by
  have hlen : ls.length = ls'.length := List.Forall₂.length_eq h
  have hinit : Values σ (List.replicate ls.length (0 : Int) ++ [(n : Int)]) (List.replicate ls'.length (GSize.int 0) ++ [g]) := by
    refine List.rel_append ?_ (.cons hg .nil)
    rw [hlen]
    generalize ls'.length = k
    induction k with
    | zero => exact .nil
    | succ k ih => exact .cons rfl ih
  have heq : ∀ l : List Nat, List.Forall₂ Eq l l := fun l => List.forall₂_refl l
  unfold splitPositionsG splitPositions
  rw [flags_count, flags_index]
  simp only
  by_cases hc : ls.count (-1) = 0
  · rw [if_pos hc, if_pos hc]
    refine runLoop_values (R := fun (p : Int × Nat) (q : GSize × Nat) => GSize.value σ q.1 = .ok p.1 ∧ p.2 = q.2)
      (step := fun p sp => sp.set (p.2 + 1) (sp.getD p.2 0 + p.1))
      ?_ ?_ hinit
    · rintro ⟨a, i⟩ ⟨b, j⟩ sp sp' ⟨h1, h2⟩ h3
      simp only at h1 h2
      subst h2
      exact putSum_values h1 h3
    · refine forall₂_zipIdx (R := fun n g => GSize.value σ g = .ok n) ?_ 0
      rw [List.dropLast_eq_take, List.dropLast_eq_take, ← hlen]
      exact List.forall₂_take _ h
  · rw [if_neg hc, if_neg hc]
    obtain ⟨r, h1, h2⟩ := runLoop_values (σ := σ) (R := Eq) (step := fun i sp => sp.set (i + 1) (sp.getD i 0 + ls.getD i 0))
      (step' := fun i sp => putSum (i + 1) i (ls'.getD i (.int 0)) sp)
      (by
        rintro i _ sp sp' rfl h3
        exact putSum_values (forall₂_getD h (a := 0) (b := .int 0) rfl i) h3) (heq (List.range (ls.idxOf (-1)))) hinit
    rw [h1]
    rw [← hlen]
    exact runLoop_values (R := Eq) (step := fun j sp => sp.set j (sp.getD (j + 1) 0 - ls.getD j 0))
      (by
        rintro i _ sp sp' rfl h3
        exact putDiff_values (forall₂_getD h (a := 0) (b := .int 0) rfl i) h3) (heq _) h2

theorem mapE_congr₂ {A B C : Type*} {R : A → B → Prop} {g : A → Py C} {g' : B → Py C} {l : List A} {m : List B}
    (h : List.Forall₂ R l m) (hg : ∀ a b, R a b → g a = g' b) : mapE g l = mapE g' m := by
  induction h with
  | nil => rfl
  | cons hd _ ih => simp only [mapE, hg _ _ hd, ih]

/-- with faithful packed shapes, `unpack` is the graph -/
theorem unpack_graph [PyUnicode] {ops : PackOps α} {x : Tensor α} {shape' : List GSize} (hs : Reports σ x.shape shape')
    {ps : List (List Int)} {ps' : List (List GSize)} (h : List.Forall₂ (List.Forall₂ (Faithful f σ)) ps ps') {pattern : Str} :
    (∃ g, traceUnpack f shape' ps' pattern = .ok g ∧
        unpack ops x ps pattern = (runUnpack ops g σ x).mapError fun _ => .runtime) ∨
      traceUnpack f shape' ps' pattern = .error .einops ∧ unpack ops x ps pattern = .error .einops := by
  unfold unpack traceUnpack
  cases ha : analyzePattern pattern with
  | error e =>
    rw [analyzePattern_err ha]
    exact .inr ⟨rfl, rfl⟩
  | ok v =>
    obtain ⟨before, after, m⟩ := v
    simp only
    rw [← List.Forall₂.length_eq hs]
    by_cases hl : x.shape.length ≠ before + 1 + after
    · rw [if_pos hl, if_pos hl]
      exact .inr ⟨rfl, rfl⟩
    rw [if_neg hl, if_neg hl]
    obtain ⟨ls, h1, h2⟩ := composed_faithful h
    rw [h1]
    simp only
    rw [flags_faithful h2]
    simp only
    rw [flags_count]
    by_cases hc : (composedLengths ps).count (-1) > 1
    · rw [if_pos hc, if_pos hc]
      exact .inr ⟨rfl, rfl⟩
    rw [if_neg hc, if_neg hc]
    have hdim : (shape'.getD before (.int 0)).value σ = .ok ((nth x.shape before : Nat) : Int) :=
      forall₂_getD hs (a := 0) (b := .int 0) rfl before
    obtain ⟨sp', h3, h4⟩ := splitPositions_values hdim (Faithful.list h2)
    rw [h3]
    refine .inl ⟨_, rfl, ?_⟩
    unfold runUnpack
    simp only
    rw [← mapE_congr₂ (R := fun (p : List Int × Nat) q => 
        unpackPiece ops x before (splitPositions (nth x.shape before) (composedLengths ps)) p.1 p.2 =
          runPiece ops before σ x q)
      (g := fun p : List Int × Nat => unpackPiece ops x before (splitPositions (nth x.shape before) (composedLengths ps)) p.1 p.2)
      (l := ps.zipIdx) ?_ (fun a b hab => hab)]
    · cases mapE _ ps.zipIdx <;> rfl
    · rw [List.forall₂_map_right_iff]
      refine (forall₂_zipIdx h 0).imp ?_
      rintro ⟨s, i⟩ ⟨s', j⟩ ⟨h5, h6⟩
      simp only at h5 h6
      subst h6
      unfold unpackPiece runPiece
      simp only
      rw [show (sp'.getD i (.int 0)).value σ = .ok ((splitPositions (nth x.shape before) (composedLengths ps)).getD i 0) from
          forall₂_getD h4 (a := 0) (b := .int 0) rfl i,
        show (sp'.getD (i + 1) (.int 0)).value σ =
            .ok ((splitPositions (nth x.shape before) (composedLengths ps)).getD (i + 1) 0) from
          forall₂_getD h4 (a := 0) (b := .int 0) rfl (i + 1)]
      simp only
      cases ops.slice x before _ _ with
      | error e => rfl
      | ok y =>
        simp only
        unfold reshapeG
        have v1 : Values σ ((x.shape.take before).map Int.ofNat) (shape'.take before) :=
          Reports.values (List.forall₂_take before hs)
        have v2 : Values σ ((x.shape.drop (before + 1)).map Int.ofNat) (shape'.drop (before + 1)) :=
          Reports.values (List.forall₂_drop _ hs)
        rw [Values.mapE (σ := σ) (List.rel_append (List.rel_append v1 (Faithful.list h5)) v2)]

/-! ### Frameworks that do not compare, and sizes without a symbol -/

theorem eqInt_error {n : Int} {g : GSize} {e : PyErr} (h : g.eqInt f n = .error e) : e = .type := by
  cases g with
  | int => cases h
  | sym => cases f <;> cases h; rfl
  | unknown => cases h

theorem hasMinusOne_error {gs : List GSize} {e : PyErr} (h : hasMinusOne f gs = .error e) : e = .type := by
  induction gs with
  | nil => cases h
  | cons g gs ih =>
    unfold hasMinusOne at h
    cases hg : g.eqInt f (-1) with
    | error e' =>
      rw [hg] at h
      cases h
      exact eqInt_error hg
    | ok b =>
      rw [hg] at h
      cases b with
      | true => cases h
      | false => exact ih h

theorem composed_error {ps' : List (List GSize)} {s : List GSize} (hs : s ∈ ps')
    (h : hasMinusOne f s = .error .type) : mapE (composedLengthG f) ps' = .error .type := by
  induction ps' with
  | nil => cases hs
  | cons s0 ps' ih =>
    cases hc : composedLengthG f s0 with
    | error e =>
      have : e = .type := by
        unfold composedLengthG at hc
        cases hm : hasMinusOne f s0 with
        | error e' =>
          rw [hm] at hc
          cases hc
          exact hasMinusOne_error hm
        | ok b => rw [hm] at hc; cases b <;> cases hc
      simp only [mapE, hc, this]
    | ok l =>
      rcases List.mem_cons.1 hs with rfl | hs
      · unfold composedLengthG at hc
        rw [h] at hc
        cases hc
      · simp only [mapE, hc, ih hs]

theorem hasMinusOne_refuses {a b : List GSize} {e : SymExpr} (ha : ∀ g ∈ a, ∃ n, g = .int n ∧ n ≠ -1) :
    hasMinusOne .refuses (a ++ .sym e :: b) = .error .type := by
  induction a with
  | nil => rfl
  | cons g a ih =>
    obtain ⟨n, rfl, hn⟩ := ha g (by simp)
    simp only [List.cons_append, hasMinusOne, GSize.eqInt, hn, decide_false]
    exact ih fun g hg => ha g (by simp [hg])

theorem mapE_value_unknown {s : List GSize} (h : GSize.unknown ∈ s) : ∃ e, mapE (GSize.value σ) s = .error e := by
  cases hm : mapE (GSize.value σ) s with
  | error e => exact ⟨e, rfl⟩
  | ok r =>
    rw [mapE_eq_ok_iff] at hm
    have : GSize.value σ .unknown ∈ r.map Except.ok := by
      rw [← hm]
      exact List.mem_map_of_mem h
    obtain ⟨_, _, h2⟩ := List.mem_map.1 this
    cases h2

theorem runPiece_unknown {ops : PackOps α} {axis : Nat} {x : Tensor α} {p : GSize × GSize × List GSize}
    (h : p.1 = .unknown ∨ p.2.1 = .unknown ∨ GSize.unknown ∈ p.2.2) : ∃ e, runPiece ops axis σ x p = .error e := by
  unfold runPiece
  cases h1 : p.1.value σ with
  | error e => exact ⟨e, rfl⟩
  | ok lo =>
    cases h2 : p.2.1.value σ with
    | error e => exact ⟨e, rfl⟩
    | ok hi =>
      simp only
      cases ops.slice x axis lo hi with
      | error e => exact ⟨e, rfl⟩
      | ok y =>
        rcases h with h | h | h
        · rw [h] at h1; cases h1
        · rw [h] at h2; cases h2
        · obtain ⟨e, he⟩ := mapE_value_unknown (σ := σ) h
          exact ⟨e, by simp only [reshapeG, he]⟩

theorem mapE_mem_error {A B : Type*} {g : A → Py B} {l : List A} {a : A} (ha : a ∈ l) (h : ∃ e, g a = .error e) :
    ∃ e, mapE g l = .error e := by
  induction l with
  | nil => cases ha
  | cons b l ih =>
    cases hb : g b with
    | error e => exact ⟨e, by simp only [mapE, hb]⟩
    | ok c =>
      rcases List.mem_cons.1 ha with rfl | ha
      · obtain ⟨e, he⟩ := h
        rw [he] at hb
        cases hb
      · obtain ⟨e, he⟩ := ih ha
        exact ⟨e, by simp only [mapE, hb, he]⟩

theorem runLoop_invariant {B C : Type} {P : C → Prop} {step : B → C → Py C} {bs : List B}
    (h : ∀ b ∈ bs, ∀ c r, P c → step b c = .ok r → P r) : ∀ {c r : C}, P c → runLoop step c bs = .ok r → P r := by
  induction bs with
  | nil =>
    intro c r hc hr
    cases hr
    exact hc
  | cons b bs ih =>
    intro c r hc hr
    unfold runLoop at hr
    cases hs : step b c with
    | error e => rw [hs] at hr; cases hr
    | ok c' =>
      rw [hs] at hr
      exact ih (fun b hb => h b (by simp [hb])) (h b (by simp) c c' hc hs) hr

/-- the last position is the length of the axis -/
theorem splitPositionsG_last {n : GSize} {ls : List GSize} {flags : List Bool} {sp : List GSize}
    (h : splitPositionsG n ls flags = .ok sp) (hf : flags.idxOf true ≤ ls.length ∧ (flags.count true ≠ 0 → flags.idxOf true < ls.length)) :
    sp.getD ls.length (.int 0) = n := by
  have hset : ∀ (sp : List GSize) (i : Nat) (v : GSize), i ≠ ls.length →
      (sp.set i v).getD ls.length (.int 0) = sp.getD ls.length (.int 0) := by
    intro sp i v hi
    simp only [List.getD_eq_getElem?_getD, List.getElem?_set_ne hi]
  have hput : ∀ (i j : Nat) (d : GSize) (sp r : List GSize), i ≠ ls.length → putSum i j d sp = .ok r →
      sp.getD ls.length (.int 0) = n → r.getD ls.length (.int 0) = n := by
    intro i j d sp r hi hr hsp
    unfold putSum at hr
    split at hr
    · cases hr
    · cases hr
      rw [hset _ _ _ hi, hsp]
  have hput' : ∀ (i j : Nat) (d : GSize) (sp r : List GSize), i ≠ ls.length → putDiff i j d sp = .ok r →
      sp.getD ls.length (.int 0) = n → r.getD ls.length (.int 0) = n := by
    intro i j d sp r hi hr hsp
    unfold putDiff at hr
    split at hr
    · cases hr
    · cases hr
      rw [hset _ _ _ hi, hsp]
  have hinit : (List.replicate ls.length (GSize.int 0) ++ [n]).getD ls.length (.int 0) = n := by
    simp [List.getD_eq_getElem?_getD]
  unfold splitPositionsG at h
  simp only at h
  split at h
  · refine runLoop_invariant (P := fun sp => sp.getD ls.length (.int 0) = n) ?_ hinit h
    rintro ⟨d, i⟩ hb c r hc hr
    have hi : i < ls.dropLast.length := by
      have := List.snd_lt_of_mem_zipIdx hb
      simpa using this
    rw [List.length_dropLast] at hi
    exact hput _ _ _ _ _ (by simp only; omega) hr hc
  · rename_i hc
    have hu := hf.2 hc
    cases h1 : runLoop (fun i sp => putSum (i + 1) i (ls.getD i (.int 0)) sp) (List.replicate ls.length (GSize.int 0) ++ [n])
        (List.range (flags.idxOf true)) with
    | error e => rw [h1] at h; cases h
    | ok sp1 =>
      rw [h1] at h
      have h2 : sp1.getD ls.length (.int 0) = n := by
        refine runLoop_invariant (P := fun sp => sp.getD ls.length (.int 0) = n) ?_ hinit h1
        intro i hi c r hc hr
        rw [List.mem_range] at hi
        exact hput _ _ _ _ _ (by omega) hr hc
      refine runLoop_invariant (P := fun sp => sp.getD ls.length (.int 0) = n) ?_ h2 h
      intro j hj c r hc hr
      rw [List.mem_reverse, List.mem_range'_1] at hj
      exact hput' _ _ _ _ _ (by omega) hr hc

end

end Einops
