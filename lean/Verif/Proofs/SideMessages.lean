import Verif.MessageSpec
import Verif.Proofs.Messages

/-!
# What the parser says about a side is true
-/

namespace Einops

variable [PyUnicode]

theorem ellipsis_not_number : ¬ IsNumber ellipsisStr := by
  rintro ⟨_, h⟩
  obtain ⟨d, hd⟩ := h '…' (by simp [ellipsisStr])
  have := PyUnicode.decimal_alnum _ _ hd
  rw [PyUnicode.special_not_alnum '…' (by simp)] at this
  cases this

/-- what the parser knows of the part `p` it has read -/
structure SeenSo (p : Str) (st : PState) : Prop where
  cur_none : st.cur = none → ∀ c ∈ p.getLast?, isSep c
  cur_some : ∀ w, st.cur = some w → ∃ a, p = a ++ w ∧ w ≠ [] ∧ (∀ c ∈ w, ¬ isSep c) ∧ ∀ c ∈ a.getLast?, isSep c
  ids : ∀ x, Axis.str x ∈ st.identifiers → ¬ IsNumber x ∧ ∃ a b, WordAt p a x b ∧ b ≠ []
  closed : st.bracket = none → p.count '(' = p.count ')'
  opened : ∀ g, st.bracket = some g → p.count '(' = p.count ')' + 1 ∧ ∃ a b, p = a ++ ['('] ++ b ∧ ')' ∉ b

theorem nameReason_notId {u : Bool} {x : Str} (h : nameReason u x = some .notIdentifier) : ¬ IsIdentifier x := by
  unfold nameReason at h
  split at h
  · rename_i hi
    rw [← isIdentifier_iff]
    simpa using hi
  · split at h
    · split at h <;> cases h
    · cases h

theorem nameReason_underscore {u : Bool} {x : Str} (h : nameReason u x = some .underscore) :
    IsIdentifier x ∧ (x.head? = some '_' ∨ x.getLast? = some '_') ∧ ¬ (u = true ∧ x = ['_']) := by
  unfold nameReason at h
  split at h
  · cases h
  · rename_i hi
    refine ⟨isIdentifier_iff.1 (by simpa using hi), ?_⟩
    split at h
    · rename_i hh
      refine ⟨hh, ?_⟩
      split at h
      · cases h
      · rename_i hu
        rintro ⟨rfl, rfl⟩
        exact hu (by decide)
    · cases h

theorem PState.push_facts (st : PState) (a : Axis) (top : CompAxis) :
    (st.push a top).cur = st.cur ∧ (st.push a top).identifiers = st.identifiers ∧
      (st.push a top).bracket.isSome = st.bracket.isSome := by
  unfold PState.push
  cases h : st.bracket <;> simp [h]

theorem mem_setAdd_str {l : List Axis} {a b : Axis} : a ∈ setAdd l b ↔ a ∈ l ∨ a = b := by
  unfold setAdd
  split
  · rename_i h
    exact ⟨.inl, fun h' => h'.elim id (fun e => e ▸ h)⟩
  · simp

/-- a word that is accepted -/
theorem addAxisNameM_ok {side : Nat} {u d : Bool} {st st' : PState} {x : Str}
    (h : addAxisNameM side u d st x = .ok st') :
    st'.cur = st.cur ∧ st'.bracket.isSome = st.bracket.isSome ∧
      ∀ y, Axis.str y ∈ st'.identifiers → Axis.str y ∈ st.identifiers ∨ (y = x ∧ ¬ IsNumber x) := by
  unfold addAxisNameM at h
  split at h
  · cases h
  · dsimp only at h
    split at h
    · rename_i hx
      cases h
      obtain ⟨h1, h2, h3⟩ := PState.push_facts { st with
              fresh := st.fresh + 1
              identifiers := setAdd st.identifiers (.str ellipsisStr)
              ellParen := some st.bracket.isSome } (.str ellipsisStr) .ell
      refine ⟨h1, h3, fun y hy => ?_⟩
      rw [h2] at hy
      rcases mem_setAdd_str.1 hy with hy | hy
      · exact .inl hy
      · cases hy
        exact .inr ⟨hx.symm, hx ▸ ellipsis_not_number⟩
    · split at h
      · split at h <;> cases h <;> exact ⟨rfl, by simp_all, fun y hy => .inl hy⟩
      · split at h
        · cases h
        · rename_i hdec _
          cases ha : mkAnonM side (st.fresh + 1 - 1) x with
          | error e => rw [ha] at h; cases h
          | ok a =>
            rw [ha] at h
            cases h
            obtain ⟨h1, h2, h3⟩ := PState.push_facts { st with
              fresh := st.fresh + 1, identifiers := setAdd st.identifiers a, nonUnitary := true } a (.group [a])
            refine ⟨h1, h3, fun y hy => ?_⟩
            rw [h2] at hy
            rcases mem_setAdd_str.1 hy with hy | hy
            · exact .inl hy
            · unfold mkAnonM at ha
              split at ha
              · split at ha <;> cases ha
              · cases ha
                cases hy
        · rename_i hdec _
          cases h
          obtain ⟨h1, h2, h3⟩ := PState.push_facts { st with
              fresh := st.fresh + 1, identifiers := setAdd st.identifiers (.str x) } (.str x) (.group [.str x])
          refine ⟨h1, h3, fun y hy => ?_⟩
          rw [h2] at hy
          rcases mem_setAdd_str.1 hy with hy | hy
          · exact .inl hy
          · cases hy
            exact .inr ⟨rfl, by rw [isNumber_iff, hdec]; simp⟩

theorem WordAt.extend {p a x b r : Str} (h : WordAt p a x b) (hb : b ≠ []) : WordAt (p ++ r) a x (b ++ r) := by
  obtain ⟨h1, h2, h3, h4, h5⟩ := h
  refine ⟨by rw [h1]; simp, h2, h3, h4, fun c hc => h5 c ?_⟩
  cases b with
  | nil => exact absurd rfl hb
  | cons y b => simpa using hc

/-- a word that is refused -/
theorem addAxisNameM_says {side : Nat} {u d : Bool} {st : PState} {x a r : Str} {m : SideMessage}
    (hids : ∀ y, Axis.str y ∈ st.identifiers → ¬ IsNumber y ∧ ∃ a' b', WordAt (a ++ x) a' y b' ∧ b' ≠ [])
    (hw : WordAt (a ++ x ++ r) a x r) (h : addAxisNameM side u d st x = .error m) :
    m.SaysShown u d (a ++ x ++ r) := by
  unfold addAxisNameM at h
  split at h
  · rename_i hd
    cases h
    obtain ⟨h1, a', b', h2, h3⟩ := hids x hd.1
    have hno := hd.2
    push Not at hno
    refine ⟨by simpa using hno.2, fun h => hno.1 h.1 h.2, h1, a', b' ++ r, a, r, h2.extend h3, hw, ?_⟩
    have := congrArg List.length h2.1
    simp only [List.length_append] at this
    have := List.length_pos_of_ne_nil h3
    omega
  · dsimp only at h
    split at h
    · cases h
    · rename_i hne
      split at h
      · split at h <;> cases h
      · rename_i hone
        split at h
        · rename_i hdec hr
          cases h
          refine ⟨⟨a, r, hw⟩, by rw [isNumber_iff, hdec]; simp, hne, ?_⟩
          rename_i reason
          cases reason with
          | notIdentifier => exact nameReason_notId hr
          | underscore => exact nameReason_underscore hr
        · rename_i hdec
          cases ha : mkAnonM side (st.fresh + 1 - 1) x with
          | ok a => rw [ha] at h; cases h
          | error e =>
            rw [ha] at h
            cases h
            unfold mkAnonM at ha
            split at ha
            · rename_i hle
              split at ha
              · rename_i h1
                exact absurd ⟨hdec, h1⟩ hone
              · rename_i h1
                cases ha
                have hz : decimalValue x = 0 := by omega
                exact ⟨hz, a, x, r, hw, isNumber_iff.2 hdec, hz⟩
            · cases ha
        · cases h

/-- the end of a word (or nothing) -/
theorem flushCurM_says {side : Nat} {u d : Bool} {st : PState} {p r : Str} {m : SideMessage} (hs : SeenSo p st)
    (hr : ∀ c ∈ r.head?, isSep c) (h : flushCurM side u d st = .error m) : m.SaysShown u d (p ++ r) := by
  unfold flushCurM at h
  cases hc : st.cur with
  | none => rw [hc] at h; cases h
  | some x =>
    rw [hc] at h
    obtain ⟨a, rfl, h1, h2, h3⟩ := hs.cur_some x hc
    exact addAxisNameM_says (st := { st with cur := none }) hs.ids ⟨rfl, h1, h2, h3, hr⟩ h

theorem count_sep {c q : Char} (hc : c ≠ q) (p : Str) : (p ++ [c]).count q = p.count q := by
  rw [List.count_append, List.count_singleton]
  simp [hc]

/-- the state after the end of a word, read up to and including a separator -/
theorem flushCurM_ok {side : Nat} {u d : Bool} {st st' : PState} {p : Str} {c : Char} (hs : SeenSo p st) (hc : isSep c)
    (h : flushCurM side u d st = .ok st') :
    st'.cur = none ∧ st'.bracket.isSome = st.bracket.isSome ∧
      ∀ x, Axis.str x ∈ st'.identifiers → ¬ IsNumber x ∧ ∃ a b, WordAt (p ++ [c]) a x b ∧ b ≠ [] := by
  unfold flushCurM at h
  have hold : ∀ x, Axis.str x ∈ st.identifiers → ¬ IsNumber x ∧ ∃ a b, WordAt (p ++ [c]) a x b ∧ b ≠ [] := by
    intro x hx
    obtain ⟨h1, a, b, h2, h3⟩ := hs.ids x hx
    exact ⟨h1, a, b ++ [c], h2.extend h3, by simp⟩
  cases hcur : st.cur with
  | none =>
    rw [hcur] at h
    cases h
    exact ⟨hcur, rfl, hold⟩
  | some x =>
    rw [hcur] at h
    obtain ⟨h1, h2, h3⟩ := addAxisNameM_ok h
    refine ⟨h1, h2, fun y hy => ?_⟩
    rcases h3 y hy with hy | ⟨rfl, hn⟩
    · exact hold y hy
    · obtain ⟨a, rfl, h4, h5, h6⟩ := hs.cur_some y hcur
      exact ⟨hn, a, [c], ⟨rfl, h4, h5, h6, by simpa using hc⟩, by simp⟩

theorem stepCharM_says {side : Nat} {u d : Bool} {st : PState} {p r : Str} {c : Char} {m : SideMessage} (hs : SeenSo p st)
    (h : stepCharM side u d st c = .error m) : m.SaysShown u d (p ++ c :: r) := by
  unfold stepCharM at h
  split at h
  · rename_i hc
    have hsep : isSep c := hc
    cases hf : flushCurM side u d st with
    | error e =>
      rw [hf] at h
      cases h
      exact flushCurM_says hs (by simpa using hsep) hf
    | ok st1 =>
      rw [hf] at h
      obtain ⟨_, h2, _⟩ := flushCurM_ok hs hsep hf
      simp only at h
      split at h
      · rename_i hc
        subst hc
        unfold openBracketM at h
        cases hb : st1.bracket with
        | none => rw [hb] at h; cases h
        | some g =>
          rw [hb] at h h2
          cases h
          obtain ⟨g', hg'⟩ := Option.isSome_iff_exists.1 h2.symm
          obtain ⟨_, a, b, rfl, hb⟩ := hs.opened g' hg'
          exact ⟨a, b, r, by simp, hb⟩
      · split at h
        · rename_i hc
          subst hc
          unfold closeBracketM at h
          cases hb : st1.bracket with
          | some g => rw [hb] at h; cases h
          | none =>
            rw [hb] at h h2
            cases h
            exact ⟨p, r, by simp, hs.closed (by simpa using h2.symm)⟩
        · cases h
  · rename_i hsep
    split at h
    · cases h
    · rename_i hc
      cases h
      push Not at hc
      exact ⟨by simp, hsep, by simpa using hc.1, hc.2.1, hc.2.2⟩

theorem stepCharM_ok {side : Nat} {u d : Bool} {st st' : PState} {p : Str} {c : Char} (hs : SeenSo p st)
    (h : stepCharM side u d st c = .ok st') : SeenSo (p ++ [c]) st' := by
  unfold stepCharM at h
  split at h
  · rename_i hc
    have hsep : isSep c := hc
    cases hf : flushCurM side u d st with
    | error e => rw [hf] at h; cases h
    | ok st1 =>
      rw [hf] at h
      obtain ⟨h1, h2, h3⟩ := flushCurM_ok hs hsep hf
      simp only at h
      split at h
      · rename_i hc
        subst hc
        unfold openBracketM at h
        cases hb : st1.bracket with
        | some g => rw [hb] at h; cases h
        | none =>
          rw [hb] at h h2
          cases h
          have hcl := hs.closed (by simpa using h2.symm)
          refine ⟨fun _ => by simpa using hsep, fun w hw => by rw [h1] at hw; (cases hw), h3, fun h => by (cases h), ?_⟩
          intro g _
          refine ⟨?_, p, [], by simp, by simp⟩
          rw [count_sep (q := ')') (by decide), List.count_append, hcl]
          rfl
      · rename_i hc1
        split at h
        · rename_i hc
          subst hc
          unfold closeBracketM at h
          cases hb : st1.bracket with
          | none => rw [hb] at h; cases h
          | some g =>
            rw [hb] at h h2
            cases h
            obtain ⟨g', hg'⟩ := Option.isSome_iff_exists.1 h2.symm
            have hop := (hs.opened g' hg').1
            refine ⟨fun _ => by simpa using hsep, fun w hw => by rw [h1] at hw; (cases hw), h3, fun _ => ?_,
              fun g h => by (cases h)⟩
            rw [count_sep (q := '(') (by decide), List.count_append, hop]
            rfl
        · rename_i hc2
          cases h
          refine ⟨fun _ => by simpa using hsep, fun w hw => by rw [h1] at hw; (cases hw), h3, fun hb => ?_, fun g hb => ?_⟩
          · rw [count_sep hc1, count_sep hc2]
            exact hs.closed (by rw [hb] at h2; simpa using h2.symm)
          · rw [hb] at h2
            obtain ⟨g', hg'⟩ := Option.isSome_iff_exists.1 h2.symm
            obtain ⟨h4, a, b, rfl, h5⟩ := hs.opened g' hg'
            refine ⟨by rw [count_sep hc1, count_sep hc2]; exact h4, a, b ++ [c], by simp, ?_⟩
            simp only [List.mem_append, List.mem_singleton, not_or]
            exact ⟨h5, fun h => hc2 h.symm⟩
  · rename_i hsep
    have hc1 : c ≠ '(' := fun h => hsep (.inl h)
    have hc2 : c ≠ ')' := fun h => hsep (.inr (.inl h))
    split at h
    · cases h
      refine ⟨fun h => by (cases h), fun w hw => ?_, fun x hx => ?_, fun hb => ?_, fun g hb => ?_⟩
      · simp only [Option.some.injEq] at hw
        subst hw
        cases hcur : st.cur with
        | none =>
          refine ⟨p, by simp, by simp, ?_, hs.cur_none hcur⟩
          simp only [Option.getD_none, List.nil_append, List.mem_singleton, forall_eq]
          exact hsep
        | some w =>
          obtain ⟨a, rfl, h1, h2, h3⟩ := hs.cur_some w hcur
          refine ⟨a, by simp, by simp, ?_, h3⟩
          simp only [Option.getD_some, List.mem_append, List.mem_singleton]
          rintro y (hy | rfl)
          · exact h2 y hy
          · exact hsep
      · obtain ⟨h1, a, b, h2, h3⟩ := hs.ids x hx
        exact ⟨h1, a, b ++ [c], h2.extend h3, by simp⟩
      · rw [count_sep hc1, count_sep hc2]
        exact hs.closed hb
      · obtain ⟨h4, a, b, rfl, h5⟩ := hs.opened g hb
        refine ⟨by rw [count_sep hc1, count_sep hc2]; exact h4, a, b ++ [c], by simp, ?_⟩
        simp only [List.mem_append, List.mem_singleton, not_or]
        exact ⟨h5, fun h => hc2 h.symm⟩
    · cases h

theorem runCharsM_says {side : Nat} {u d : Bool} (r : Str) {st : PState} {p : Str} (hs : SeenSo p st) :
    (∀ m, runCharsM side u d st r = .error m → m.SaysShown u d (p ++ r)) ∧
      ∀ st', runCharsM side u d st r = .ok st' → SeenSo (p ++ r) st' := by
  induction r generalizing st p with
  | nil =>
    refine ⟨fun m h => by (cases h), fun st' h => ?_⟩
    cases h
    simpa using hs
  | cons c r ih =>
    unfold runCharsM
    cases h : stepCharM side u d st c with
    | error e =>
      refine ⟨fun m hm => ?_, fun st' hst => by (cases hst)⟩
      cases hm
      exact stepCharM_says hs h
    | ok st1 =>
      have := ih (stepCharM_ok hs h)
      rwa [List.append_assoc] at this

theorem prepareDotsM_shown {s t : Str} {b : Bool} (h : prepareDotsM s = .ok (b, t)) : Shown s t := by
  have he := erase_prepareDotsM s
  rw [h] at he
  rcases prepareDots_cases s with ⟨h1, h2⟩ | ⟨p, q, h1, h2, h3, h4⟩ | ⟨_, _, h2⟩
  · rw [h2] at he
    cases he
    exact .inl ⟨h1, rfl⟩
  · rw [h4] at he
    cases he
    exact .inr ⟨p, q, h1, h2, h3, rfl⟩
  · rw [h2] at he
    cases he

theorem prepareDotsM_says {s : Str} {u d : Bool} {m : SideMessage} (h : prepareDotsM s = .error m) : m.Says u d s := by
  have he := erase_prepareDotsM s
  rw [h] at he
  rcases prepareDots_cases s with ⟨h1, h2⟩ | ⟨p, q, h1, h2, h3, h4⟩ | ⟨hdot, hno, h2⟩
  · rw [h2] at he; cases he
  · rw [h4] at he; cases he
  · unfold prepareDotsM at h
    split at h
    · split at h
      · rename_i hc
        cases h
        refine ⟨hdot, fun hd => ?_⟩
        rw [show dots = ['.', '.', '.'] from rfl, ← containsSub_iff] at hd
        rw [hd] at hc
        cases hc
      · rename_i hc
        split at h
        · cases h
          exact ⟨containsSub_iff.1 (by simpa [dots] using hc), hno⟩
        · cases h
    · cases h

/-- **Messages of the parser are true.** -/
theorem parseExpressionM_says {side : Nat} {u d : Bool} {s : Str} {m : SideMessage}
    (h : parseExpressionM side u d s = .error m) : m.Says u d s := by
  unfold parseExpressionM at h
  cases hp : prepareDotsM s with
  | error e =>
    rw [hp] at h
    cases h
    exact prepareDotsM_says hp
  | ok v =>
    obtain ⟨b, t⟩ := v
    have hsh := prepareDotsM_shown hp
    rw [hp] at h
    simp only at h
    have hinit : SeenSo [] PState.init :=
      ⟨by simp, by simp [PState.init], by simp [PState.init], by simp, by simp [PState.init]⟩
    have hlift : m.SaysShown u d t → m.Says u d s := by
      intro hm
      cases m <;> first | exact hm.elim | exact ⟨t, hsh, hm⟩
    apply hlift
    have hrun := runCharsM_says (side := side) (u := u) (d := d) t hinit
    rw [List.nil_append] at hrun
    cases hr : runCharsM side u d PState.init t with
    | error e =>
      rw [hr] at h
      cases h
      exact hrun.1 _ hr
    | ok st =>
      rw [hr] at h
      simp only at h
      have hs := hrun.2 st hr
      cases hf : finishParseM side u d t st with
      | ok st' => rw [hf] at h; cases h
      | error e =>
        rw [hf] at h
        cases h
        unfold finishParseM at hf
        split at hf
        · rename_i hb
          cases hf
          obtain ⟨g, hg⟩ := Option.isSome_iff_exists.1 hb
          exact ⟨rfl, (hs.opened g hg).2⟩
        · have := flushCurM_says (r := []) hs (by simp) hf
          simpa using this

end Einops
