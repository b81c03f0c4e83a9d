import Verif.Messages
import Verif.Proofs.Prepare
import Verif.Proofs.Reconstruct

/-!
# Without their messages the functions of `Messages` are those of `Parsing`, `Recipe` and `Apply`
-/

namespace Einops

universe u

/-- a parse without the message -/
def eraseSide {α : Type u} : PySide α → Py α
  | .error _ => .error .einops
  | .ok a => .ok a

@[simp] theorem eraseSide_error {α : Type u} (m : SideMessage) : eraseSide (.error m : PySide α) = .error .einops := rfl
@[simp] theorem eraseSide_ok {α : Type u} (a : α) : eraseSide (.ok a : PySide α) = .ok a := rfl
@[simp] theorem erase_einops {α : Type u} (m : Message) : erase (.error (.einops m) : PyM α) = .error .einops := rfl
@[simp] theorem erase_other {α : Type u} (e : PyErr) : erase (.error (.other e) : PyM α) = .error e := rfl
@[simp] theorem erase_ok {α : Type u} (a : α) : erase (.ok a : PyM α) = .ok a := rfl
theorem erase_error {α : Type u} (f : Fault) : erase (.error f : PyM α) = .error f.kind := rfl

theorem erase_quiet {α : Type u} (x : Py α) : erase (quiet x) = x := by cases x <;> rfl

/-- sequencing forgets messages step by step -/
theorem eraseSide_bind {α β : Type u} (x : PySide α) (f : α → PySide β) :
    eraseSide (match x with | .error e => .error e | .ok a => f a) =
      (match eraseSide x with | .error e => .error e | .ok a => eraseSide (f a)) := by
  cases x <;> rfl

theorem erase_bind {α β : Type u} (x : PyM α) (f : α → PyM β) :
    erase (match x with | .error e => .error e | .ok a => f a) =
      (match erase x with | .error e => .error e | .ok a => erase (f a)) := by
  cases x <;> rfl

section
variable [PyUnicode]

theorem nameReason_iff (u : Bool) (x : Str) : (nameReason u x).isNone = checkAxisName u x := by
  unfold nameReason checkAxisName
  split
  · rfl
  · split
    · cases h : (x == ['_'] && u) <;> rfl
    · rfl

theorem erase_mkAnonM (side idx : Nat) (x : Str) : eraseSide (mkAnonM side idx x) = mkAnon side idx x := by
  unfold mkAnonM mkAnon
  split
  · split <;> rfl
  · rfl

theorem erase_addAxisNameM (side : Nat) (u d : Bool) (st : PState) (x : Str) :
    eraseSide (addAxisNameM side u d st x) = addAxisName side u d st x := by
  unfold addAxisNameM addAxisName
  split
  · rfl
  · dsimp only
    split
    · rfl
    · split
      · cases st.bracket <;> rfl
      · have h := nameReason_iff u x
        have h2 := erase_mkAnonM side (st.fresh + 1 - 1) x
        cases hd : isDecimal x <;> cases hr : nameReason u x <;> rw [hr] at h <;> simp only [Option.isNone] at h <;>
          simp [← h] <;> rw [Nat.add_sub_cancel] at h2 <;> rw [← h2] <;> cases mkAnonM side st.fresh x <;> rfl

theorem erase_flushCurM (side : Nat) (u d : Bool) (st : PState) :
    eraseSide (flushCurM side u d st) = flushCur side u d st := by
  unfold flushCurM flushCur
  cases st.cur with
  | none => rfl
  | some x => exact erase_addAxisNameM ..

omit [PyUnicode] in
theorem erase_openBracketM (st : PState) : eraseSide (openBracketM st) = openBracket st := by
  unfold openBracketM openBracket; cases st.bracket <;> rfl

omit [PyUnicode] in
theorem erase_closeBracketM (st : PState) : eraseSide (closeBracketM st) = closeBracket st := by
  unfold closeBracketM closeBracket; cases st.bracket <;> rfl

theorem erase_stepCharM (side : Nat) (u d : Bool) (st : PState) (c : Char) :
    eraseSide (stepCharM side u d st c) = stepChar side u d st c := by
  unfold stepCharM stepChar
  split
  · rw [← erase_flushCurM]
    cases flushCurM side u d st with
    | error e => rfl
    | ok st =>
      simp only [eraseSide_ok]
      split
      · exact erase_openBracketM st
      · split
        · exact erase_closeBracketM st
        · rfl
  · split <;> rfl

theorem erase_runCharsM (side : Nat) (u d : Bool) (s : Str) (st : PState) :
    eraseSide (runCharsM side u d st s) = runChars side u d st s := by
  induction s generalizing st with
  | nil => rfl
  | cons c cs ih =>
    unfold runCharsM runChars
    rw [← erase_stepCharM]
    cases stepCharM side u d st c with
    | error e => rfl
    | ok st => exact ih st

theorem erase_finishParseM (side : Nat) (u d : Bool) (e : Str) (st : PState) :
    eraseSide (finishParseM side u d e st) = finishParse side u d st := by
  unfold finishParseM finishParse
  split
  · rfl
  · exact erase_flushCurM ..

omit [PyUnicode] in
theorem erase_prepareDotsM (s : Str) : eraseSide (prepareDotsM s) = prepareDots s := by
  unfold prepareDotsM prepareDots
  split
  · split
    · rfl
    · split <;> rfl
  · rfl

theorem erase_parseExpressionM (side : Nat) (u d : Bool) (s : Str) :
    eraseSide (parseExpressionM side u d s) = parseExpression side u d s := by
  unfold parseExpressionM parseExpression
  rw [← erase_prepareDotsM]
  cases prepareDotsM s with
  | error e => rfl
  | ok p =>
    obtain ⟨b, t⟩ := p
    simp only [eraseSide_ok]
    rw [← erase_runCharsM]
    cases runCharsM side u d PState.init t with
    | error e => rfl
    | ok st =>
      simp only [eraseSide_ok]
      rw [← erase_finishParseM side u d t]
      cases finishParseM side u d t st <;> rfl

end

theorem erase_raiseFor (so : SetOrder) (l : List Axis) (m : List Axis → Message) (r : PyM Unit) :
    erase (raiseFor so l m r) = if l ≠ [] then .error .einops else erase r := by
  unfold raiseFor; split <;> rfl

theorem erase_checkSidesM (so : SetOrder) (pattern : Str) (left rght : ParsedExpression) (op : OpKind) (names : List Str) :
    erase (checkSidesM so pattern left rght op names) = checkSides left rght op names := by
  unfold checkSidesM checkSides
  split
  · rfl
  · split
    · rfl
    · split
      · split
        · rfl
        · rw [erase_raiseFor]; rfl
      · split
        · rw [erase_raiseFor, erase_raiseFor]; rfl
        · cases op with
          | callable => simp only [erase_raiseFor]; rfl
          | name s =>
            simp only
            split
            · rw [erase_raiseFor]; rfl
            · rfl

theorem erase_expandSidesM (left rght : ParsedExpression) (ndim : Nat) :
    erase (expandSidesM left rght ndim) = expandSides left rght ndim := by
  unfold expandSidesM expandSides
  split
  · split <;> rfl
  · split <;> rfl

section
variable [PyUnicode]

theorem erase_markExpectedM (names : List Str) (d : List (Axis × Int)) :
    erase (markExpectedM d names) = markExpected d names := by
  induction names generalizing d with
  | nil => rfl
  | cons n ns ih =>
    unfold markExpectedM markExpected
    split
    · rfl
    · cases dictGet d (.str n) with
      | none => rfl
      | some _ => exact ih _

omit [PyUnicode] in
theorem erase_knownUnknownM (so : SetOrder) (keys : List Axis) (d : List (Axis × Int)) (i : Nat) (g : List Axis) :
    erase (knownUnknownM so keys d i g) = knownUnknown so keys d i g := by
  unfold knownUnknownM knownUnknown
  cases mapE (fun a => dictGetE d a) g with
  | error e => rfl
  | ok lens =>
    dsimp only
    split
    · rfl
    · split
      · rfl
      · split
        · simp_all
        · split <;> simp_all

theorem erase_mapE {α β : Type} (f : α → PyM β) (l : List α) : erase (mapE f l) = mapE (fun a => erase (f a)) l := by
  induction l with
  | nil => rfl
  | cons a l ih =>
    simp only [mapE]
    rw [← ih]
    cases f a with
    | error e => rfl
    | ok b =>
      simp only [erase_ok]
      cases mapE f l <;> rfl

theorem erase_buildRecipeM (so : SetOrder) (ex : Expanded) (names : List Str) :
    erase (buildRecipeM so ex names) = buildRecipe so ex names := by
  unfold buildRecipeM buildRecipe
  dsimp only
  rw [← erase_markExpectedM]
  cases markExpectedM (knownAll so ex.left ex.rghtIds) names with
  | error e => rfl
  | ok d =>
    simp only [erase_ok]
    simp only [← erase_knownUnknownM, ← erase_mapE]
    cases mapE (fun p : List Axis × Nat => knownUnknownM so _ d p.2 p.1) ex.left.zipIdx with
    | error e => rfl
    | ok ic =>
      simp only [erase_ok]
      cases mapE (fun g => mapE (positionE (List.map Prod.fst (knownAll so ex.left ex.rghtIds))) g) ex.rght with
      | error e => rfl
      | ok oc =>
        dsimp only
        cases mapE (indexE ex.left.flatten) (ex.rght.flatten.filter (fun a => a ∈ ex.leftIds) ++
            ex.left.flatten.filter (fun a => a ∉ ex.rghtIds)) with
        | error e => rfl
        | ok perm =>
          dsimp only
          split
          · rename_i h
            split
            · rename_i h'
              cases h.symm.trans h'
              rfl
            · rename_i h'
              cases h.symm.trans h'
          · rename_i h
            split
            · rename_i h2
              split
              · rename_i h'
                cases h.symm.trans h'
              · rename_i h'
                cases h.symm.trans h'
                split
                · rename_i h2'
                  cases h2.symm.trans h2'
                  rfl
                · rename_i h2'
                  cases h2.symm.trans h2'
            · rename_i h2
              split
              · rename_i h'
                cases h.symm.trans h'
              · rename_i h'
                cases h.symm.trans h'
                split
                · rename_i h2'
                  cases h2.symm.trans h2'
                · rename_i h2'
                  cases h2.symm.trans h2'
                  rfl

theorem erase_prepareRecipeM (so : SetOrder) (pattern : Str) (op : OpKind) (names : List Str) (ndim : Nat) :
    erase (prepareRecipeM so pattern op names ndim) = prepareRecipe so pattern op names ndim := by
  unfold prepareRecipeM prepareRecipe
  cases splitArrow pattern with
  | error e => rfl
  | ok p =>
    obtain ⟨l, r⟩ := p
    simp only
    rw [← erase_parseExpressionM, ← erase_parseExpressionM]
    cases parseExpressionM 0 false false l with
    | error e => rfl
    | ok left =>
      simp only [eraseSide_ok]
      cases parseExpressionM 1 false false r with
      | error e => rfl
      | ok rght =>
        simp only [eraseSide_ok]
        rw [← erase_checkSidesM so pattern]
        cases checkSidesM so pattern left rght op names with
        | error e => rfl
        | ok _ =>
          simp only [erase_ok]
          rw [← erase_expandSidesM]
          cases expandSidesM left rght ndim with
          | error e => rfl
          | ok ex => exact erase_buildRecipeM ..

end

theorem erase_inferAxisM (st : List Size × Bool) (length : Size) (ku : List Nat × List Nat) :
    erase (inferAxisM st length ku) = inferAxis st length ku := by
  obtain ⟨ls, need⟩ := st
  obtain ⟨known, unknown⟩ := ku
  unfold inferAxisM inferAxis
  have rest : ∀ known unknown : List Nat, erase (match mapE (getE ls) known with
      | .error e => .error (.other e)
      | .ok vs =>
        let knownProduct := sizeProd vs
        match unknown with
        | [] =>
          if length.isInt && knownProduct.isInt && decide (length.val ≠ knownProduct.val) then
            .error (.einops (.mismatch length.val knownProduct.val))
          else .ok (ls, need || decide (known.length + unknown.length ≠ 1))
        | u :: _ =>
          if length.isInt && knownProduct.isInt && decide (knownProduct.val = 0) then .error (.other .zeroDivision)
          else if length.isInt && knownProduct.isInt && decide (Int.fmod length.val knownProduct.val ≠ 0) then
            .error (.einops (.notDivisible length.val knownProduct.val))
          else
            match setE ls u (length.fdiv knownProduct) with
            | .error e => .error (.other e)
            | .ok ls => .ok (ls, need || decide (known.length + unknown.length ≠ 1))) =
      (match mapE (getE ls) known with
      | .error e => .error e
      | .ok vs =>
        let knownProduct := sizeProd vs
        match unknown with
        | [] =>
          if length.isInt && knownProduct.isInt && decide (length.val ≠ knownProduct.val) then .error .einops
          else .ok (ls, need || decide (known.length + unknown.length ≠ 1))
        | u :: _ =>
          if length.isInt && knownProduct.isInt && decide (knownProduct.val = 0) then .error .zeroDivision
          else if length.isInt && knownProduct.isInt && decide (Int.fmod length.val knownProduct.val ≠ 0) then .error .einops
          else
            match setE ls u (length.fdiv knownProduct) with
            | .error e => .error e
            | .ok ls => .ok (ls, need || decide (known.length + unknown.length ≠ 1))) := by
    intro known unknown
    cases mapE (getE ls) known with
    | error e => rfl
    | ok vs =>
      cases unknown with
      | nil => dsimp only; split <;> rfl
      | cons u us =>
        dsimp only
        split
        · rfl
        · split
          · rfl
          · cases setE ls u (length.fdiv (sizeProd vs)) <;> rfl
  match known, unknown with
  | [], [] => exact rest [] []
  | [], [u] => dsimp only; cases setE ls u length <;> rfl
  | [], u :: v :: us => exact rest [] (u :: v :: us)
  | k :: ks, us => exact rest (k :: ks) us

theorem erase_inferAllM (shape : List Size) (l : List ((List Nat × List Nat) × Nat)) (st : List Size × Bool) :
    erase (inferAllM shape st l) = inferAll shape st l := by
  induction l generalizing st with
  | nil => rfl
  | cons p rest ih =>
    obtain ⟨ku, i⟩ := p
    unfold inferAllM inferAll
    cases getE shape i with
    | error e => rfl
    | ok length =>
      simp only
      rw [← erase_inferAxisM]
      cases inferAxisM st length ku with
      | error e => rfl
      | ok st => exact ih st

theorem erase_reconstructM (r : TransformRecipe) (shape : List Size) (kw : List (Str × Size)) :
    erase (reconstructM r shape kw) = reconstruct r shape kw := by
  unfold reconstructM reconstruct
  cases setDims r.axisName2elementary (r.elementaryAxesLengths.map Size.ofInt) kw with
  | error e => rfl
  | ok ls0 =>
    simp only
    rw [← erase_inferAllM]
    cases inferAllM shape (ls0, false) r.inputComposition.zipIdx with
    | error e => rfl
    | ok p =>
      obtain ⟨ls, need⟩ := p
      simp only [erase_ok]
      split
      · simp_all
      · split <;> simp_all

section
variable {α : Type u} [PyUnicode]

/-- Forgetting the message gives the operation. -/
theorem erase_reduceM (b : Backend α) (so : SetOrder) (t : Input α) (pattern : Str) (red : Reduction α)
    (kw : List (Str × Size)) : erase (reduceM b so t pattern red kw) = reduce b so t pattern red kw := by
  unfold reduceM reduce
  cases resolveInput b t with
  | error e => rfl
  | ok x =>
    simp only
    rw [← erase_prepareRecipeM]
    cases prepareRecipeM so pattern red.kind (kw.map Prod.fst) x.ndim with
    | error e => rfl
    | ok r =>
      simp only [erase_ok]
      rw [applyRecipe, ← erase_reconstructM]
      cases reconstructM r (x.shape.map Size.ofNat) kw with
      | error e => rfl
      | ok c => exact erase_quiet _

end

end Einops
