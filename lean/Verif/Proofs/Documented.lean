import Verif.Proofs.Classical
import Verif.Props.Examples

/-! Calls with patterns made of names and units, and patterns in ASCII. -/

namespace Einops

universe u

/-! ### ASCII patterns do not depend on the Unicode tables -/

section
variable [U : PyUnicode]

theorem ascii_alnum {c : Char} (h : c.isAlphanum = true) : PyUnicode.isAlnum c = true ∧ PyUnicode.xidContinue c = true := by
  rw [Char.isAlphanum, Bool.or_eq_true] at h
  rcases h with h | h
  · exact ⟨(PyUnicode.ascii_letter c h).1, (PyUnicode.ascii_letter c h).2.2⟩
  · exact ⟨(PyUnicode.ascii_digit c h).1, (PyUnicode.ascii_digit c h).2.2⟩

theorem isName_ascii {u : Bool} {w : Str} (h : @IsName asciiUnicode u w) : IsName u w := by
  obtain ⟨h1, ⟨c, cs, rfl, h2, h3⟩, h4⟩ := h
  refine ⟨fun c hc => (h1 c hc).imp_left fun h => (ascii_alnum h).1, ⟨c, cs, rfl, ?_, ?_⟩, h4⟩
  · exact h2.imp_left fun h => (PyUnicode.ascii_letter c h).2.1
  · intro d hd
    have := h3 d hd
    simp only [PyUnicode.xidContinue, Bool.or_eq_true, beq_iff_eq] at this
    rcases this with h | rfl
    · exact (ascii_alnum h).2
    · exact PyUnicode.underscore_xid.2

theorem decimal_ascii {c : Char} {d : Nat} (h : @PyUnicode.decimal asciiUnicode c = some d) : PyUnicode.decimal c = some d := by
  simp only [PyUnicode.decimal] at h
  by_cases hc : c.isDigit = true
  · rw [if_pos hc] at h
    rw [← h]
    exact (PyUnicode.ascii_digit c hc).2.1
  · rw [if_neg hc] at h
    cases h

theorem number_ascii {w : Str} (h : @IsNumber asciiUnicode w) : IsNumber w ∧ decimalValue w = @decimalValue asciiUnicode w := by
  refine ⟨⟨h.1, fun c hc => ?_⟩, ?_⟩
  · obtain ⟨d, hd⟩ := h.2 c hc
    exact ⟨d, decimal_ascii hd⟩
  · unfold decimalValue
    have : ∀ (w : Str) (n : Nat), (∀ c ∈ w, ∃ d, @PyUnicode.decimal asciiUnicode c = some d) →
        w.foldl (fun n c => n * 10 + (PyUnicode.decimal c).getD 0) n =
          w.foldl (fun n c => n * 10 + (@PyUnicode.decimal asciiUnicode c).getD 0) n := by
      intro w
      induction w with
      | nil => exact fun _ _ => rfl
      | cons c w ih =>
        intro n hw
        obtain ⟨d, hd⟩ := hw c (by simp)
        rw [List.foldl_cons, List.foldl_cons, hd, decimal_ascii hd]
        exact ih _ (fun c hc => hw c (by simp [hc]))
    exact this w 0 h.2

theorem wordOK_ascii {u : Bool} {w : Str} (h : @WordOK asciiUnicode u w) :
    WordOK u w ∧ (IsNumber w ↔ @IsNumber asciiUnicode w) := by
  rcases h with rfl | ⟨h1, h2⟩ | h
  · exact ⟨.inl rfl, iff_of_false dots_not_number (@dots_not_number asciiUnicode)⟩
  · exact ⟨.inr (.inl ⟨(number_ascii h1).1, by rw [(number_ascii h1).2]; exact h2⟩), iff_of_true (number_ascii h1).1 h1⟩
  · exact ⟨.inr (.inr (isName_ascii h)), iff_of_false (isName_not_number u (isName_ascii h)) (@isName_not_number asciiUnicode u _ h)⟩

theorem isSide_ascii {u d : Bool} {s : Str} {G : List Elem} (h : @IsSide asciiUnicode u d s G) : IsSide u d s G := by
  have hw := @IsSide.words_ok asciiUnicode _ _ _ _ h
  refine ⟨@IsSide.lexes asciiUnicode _ _ _ _ h, fun w h => (wordOK_ascii (hw w h)).1,
    @IsSide.one_ellipsis asciiUnicode _ _ _ _ h, fun hd => ?_⟩
  have := @IsSide.nodup asciiUnicode _ _ _ _ h hd
  rwa [List.filter_congr (q := unrepeatable u)] at this
  intro w h
  have := (wordOK_ascii (hw w h)).2
  simp only [unrepeatable]
  congr 1
  exact decide_eq_decide.2 (not_congr this.symm)

theorem isPattern_ascii {q : Str} {GL GR : List Elem} (h : @IsPattern asciiUnicode q GL GR) : IsPattern q GL GR := by
  obtain ⟨l, r, h1, h2, h3⟩ := h
  exact ⟨l, r, h1, isSide_ascii h2, isSide_ascii h3⟩

end

/-! ### Sides made of names and units -/

section
variable {α : Type u} [PyUnicode]

/-- the names in an element -/
def Elem.names (e : Elem) : List Str := e.words.filter fun w => decide (¬ IsNumber w)

/-- the groups of axes of a side made of names and units -/
def plainGroups (G : List Elem) : List (List Axis) := G.map fun e => e.names.map Axis.str

/-- the word is a name or a unit -/
def Plain (w : Str) : Prop := IsName false w ∨ IsNumber w ∧ decimalValue w = 1

theorem plain_ne_dots {w : Str} (h : Plain w) : w ≠ dots := by
  rcases h with h | h
  · exact isName_ne_dots h
  · exact number_ne_dots h.1

theorem plain_axes (side k : Nat) {ws : List Str} (h : ∀ w ∈ ws, Plain w) :
    wordsAxes side k ws = (ws.filter fun w => decide (¬ IsNumber w)).map Axis.str := by
  rw [wordsAxes_words side k (fun w hw hn => ((h w hw).resolve_left fun h => isName_not_number false h hn).2)]
  exact List.map_congr_left fun w hw => by rw [if_neg (plain_ne_dots (h w (List.mem_of_mem_filter hw)))]

theorem plain_name {w : Str} {ws : List Str} (h : ∀ w ∈ ws, Plain w) (hw : w ∈ ws.filter fun w => decide (¬ IsNumber w)) :
    IsName false w := by
  rw [List.mem_filter, decide_eq_true_iff] at hw
  exact (h w hw.1).resolve_right fun h => hw.2 h.1

theorem spread_plain (side k : Nat) (ell : List Axis) {G : List Elem} (hG : ∀ w ∈ sideWords G, Plain w) :
    spread ell (denote side k G) = plainGroups G := by
  induction G generalizing k with
  | nil => rfl
  | cons e G ih =>
    have h1 : ∀ w ∈ e.words, Plain w := fun w h => hG w (by rw [words_cons]; exact List.mem_append_left _ h)
    have h2 : ∀ w ∈ sideWords G, Plain w := fun w h => hG w (by rw [words_cons]; exact List.mem_append_right _ h)
    have h3 := flatMap_names ell (A := e.names) (fun w hw => plain_name h1 hw)
    cases e with
    | bare w =>
      have hw := plain_ne_dots (h1 w (by simp [Elem.words]))
      rw [denote, if_neg hw, spread, ih _ h2]
      have : wordAxes side k w = (Elem.bare w).names.map Axis.str := by
        have := plain_axes side k (ws := [w]) (by simpa [Elem.words] using h1)
        simpa [wordsAxes, Elem.names, Elem.words] using this
      rw [this, h3]
      rfl
    | paren ws =>
      rw [denote, spread, ih _ h2]
      have : wordsAxes side k ws = (Elem.paren ws).names.map Axis.str :=
        plain_axes side k (by simpa [Elem.words] using h1)
      rw [this, h3]
      rfl

theorem plain_flatten (G : List Elem) : (plainGroups G).flatten = (G.flatMap Elem.names).map Axis.str := by
  induction G with
  | nil => rfl
  | cons e G ih => rw [List.flatMap_cons, List.map_append, ← ih]; rfl

theorem mem_names {G : List Elem} {w : Str} : w ∈ G.flatMap Elem.names ↔ w ∈ sideWords G ∧ ¬ IsNumber w := by
  simp only [sideWords, List.mem_flatMap, Elem.names, List.mem_filter, decide_eq_true_iff]
  exact ⟨fun ⟨e, h1, h2, h3⟩ => ⟨⟨e, h1, h2⟩, h3⟩, fun ⟨⟨e, h1, h2⟩, h3⟩ => ⟨e, h1, h2, h3⟩⟩

theorem plain_nodup {s : Str} {G : List Elem} (h : IsSide false false s G) (hG : ∀ w ∈ sideWords G, Plain w) :
    (G.flatMap Elem.names).Nodup := by
  have := side_flatten_nodup h 0 0
  rw [spread_plain _ _ _ hG, plain_flatten] at this
  exact this.of_map _

/-- number of elements of a dimension whose names have the lengths `val` -/
def Elem.size (val : Str → Nat) (e : Elem) : Nat := (e.names.map val).prod

/-- position of the coordinates `c` in a dimension -/
def Elem.pos (val c : Str → Nat) (e : Elem) : Nat := e.names.foldl (fun acc w => acc * val w + c w) 0

/-- a length for every axis, from lengths for the names -/
def ofNames (val : Str → Nat) : AxisMap
  | .str w => val w
  | .anon _ _ v => v

theorem plain_size (val : Str → Nat) (G : List Elem) :
    (plainGroups G).map (groupSize (ofNames val)) = G.map (Elem.size val) := by
  simp only [plainGroups, List.map_map]
  refine List.map_congr_left fun e _ => ?_
  simp [groupSize, Elem.size, Function.comp_def, ofNames]

theorem plain_pos (val c : Str → Nat) (G : List Elem) :
    (plainGroups G).map (groupPos (ofNames val) (ofNames c)) = G.map (Elem.pos val c) := by
  simp only [plainGroups, List.map_map]
  refine List.map_congr_left fun e _ => ?_
  simp [groupPos, Elem.pos, List.foldl_map, ofNames]

/-- A call whose sides are made of names and units. -/
theorem plain_accepted {op : OpKind} {q : Str} {GL GR : List Elem} {kw : List (Str × Size)}
    (hL : ∀ w ∈ sideWords GL, Plain w) (hR : ∀ w ∈ sideWords GR, Plain w) (hq : IsPattern q GL GR)
    (hop : op = .name "rearrange".toList ∧ (∀ w, w ∈ GL.flatMap Elem.names ↔ w ∈ GR.flatMap Elem.names) ∨
      op = .name "repeat".toList ∧ (∀ w ∈ GL.flatMap Elem.names, w ∈ GR.flatMap Elem.names) ∧
        (∀ w ∈ GR.flatMap Elem.names, w ∈ GL.flatMap Elem.names ∨ w ∈ kw.map Prod.fst) ∨
      isRed op ∧ (∀ s, op = .name s → s ∈ builtins) ∧ ∀ w ∈ GR.flatMap Elem.names, w ∈ GL.flatMap Elem.names)
    (hkw : ∀ n ∈ kw.map Prod.fst, n ∈ GL.flatMap Elem.names ++ GR.flatMap Elem.names) {s : List Nat} {val : Str → Nat}
    (hs : s = GL.map (Elem.size val)) (hlk : ∀ p ∈ kw, (val p.1 : Int) = p.2.val)
    (hone : ∀ e ∈ GL, (e.names.filter fun w => decide (w ∉ kw.map Prod.fst)).length ≤ 1)
    (hdet : ∀ e ∈ GL, (∃ w ∈ e.names, w ∉ kw.map Prod.fst) → ∀ w ∈ e.names, w ∈ kw.map Prod.fst → val w ≠ 0) :
    Accepted op q kw s GL GR (plainGroups GL) (plainGroups GR) (ofNames val) := by
  have dL : dots ∉ sideWords GL := fun h => plain_ne_dots (hL _ h) rfl
  have dR : dots ∉ sideWords GR := fun h => plain_ne_dots (hR _ h) rfl
  have hell : EllipsisOK GL GR :=
    ⟨fun h => absurd h dR, fun ws h hd => dL (List.mem_flatMap.2 ⟨_, h, hd⟩)⟩
  have uL : OnlyUnits GL := fun w hw hn => ((hL w hw).resolve_left fun h => isName_not_number false h hn).2
  have uR : OnlyUnits GR := fun w hw hn => ((hR w hw).resolve_left fun h => isName_not_number false h hn).2
  refine ⟨hq, ⟨?_, ?_, ⟨0, fun _ => rfl, ?_, ?_, ?_⟩, ?_⟩, ⟨?_, ?_, ?_⟩, ?_⟩
  · rcases hop with ⟨rfl, h⟩ | ⟨rfl, h, h'⟩ | ⟨h0, h, h'⟩
    · rw [SidesOK, if_pos rfl]
      exact ⟨hell, uL, uR, fun w hw hn => (mem_names.1 ((h w).1 (mem_names.2 ⟨hw, hn⟩))).1,
        fun w hw hn => (mem_names.1 ((h w).2 (mem_names.2 ⟨hw, hn⟩))).1⟩
    · rw [SidesOK, if_neg (by decide), if_pos rfl]
      exact ⟨hell, uL, fun w hw hn => (mem_names.1 (h w (mem_names.2 ⟨hw, hn⟩))).1,
        fun w hw hn => (h' w (mem_names.2 ⟨hw, hn⟩)).imp_left fun h => (mem_names.1 h).1⟩
    · rw [SidesOK, if_neg h0.1, if_neg h0.2]
      exact ⟨h, hell, uR, fun w hw hn => (mem_names.1 (h' w (mem_names.2 ⟨hw, hn⟩))).1⟩
  · intro n hn
    rcases List.mem_append.1 (hkw n hn) with h | h
    · have h := mem_names.1 h
      exact ⟨(hL n h.1).resolve_right fun h' => h.2 h'.1, List.mem_append_left _ h.1⟩
    · have h := mem_names.1 h
      exact ⟨(hR n h.1).resolve_right fun h' => h.2 h'.1, List.mem_append_right _ h.1⟩
  · rw [spread_plain _ _ _ hL]
  · rw [spread_plain _ _ _ hR]
  · rw [hs, plainGroups, List.length_map, List.length_map]
  · intro g hg
    obtain ⟨e, he, rfl⟩ := List.mem_map.1 hg
    rw [List.filter_map, List.length_map]
    refine le_trans (le_of_eq ?_) (hone e he)
    congr 1
    refine List.filter_congr fun w _ => ?_
    simp [isKnown]
  · rw [hs, plain_size]
  · exact fun n z h => hlk (n, z) h
  · intro sd i v h
    rfl
  · intro g hg ⟨a, ha, hk⟩
    obtain ⟨e, he, rfl⟩ := List.mem_map.1 hg
    obtain ⟨w, hw, rfl⟩ := List.mem_map.1 ha
    have := hdet e he ⟨w, hw, by simpa [isKnown] using hk⟩
    unfold groupSize
    rw [Ne, List.prod_eq_zero_iff]
    intro h0
    obtain ⟨a, ha, h0⟩ := List.mem_map.1 h0
    rw [List.mem_filter] at ha
    obtain ⟨v, hv, rfl⟩ := List.mem_map.1 ha.1
    exact this v hv (by simpa [isKnown] using ha.2) h0

/-- An operation that moves elements, sides made of names and units: the result exists and its elements are named. -/
theorem plain_moves {E : ElemOps α} {b : Backend α} (hb : Modelled E b) {op : Str} {q : Str} {GL GR : List Elem}
    {kw : List (Str × Size)} (hik : IntKw kw) {x : Tensor α} {val : Str → Nat}
    (hL : ∀ w ∈ sideWords GL, Plain w) (hR : ∀ w ∈ sideWords GR, Plain w) (hq : IsPattern q GL GR)
    (hop : op = "rearrange".toList ∧ (∀ w, w ∈ GL.flatMap Elem.names ↔ w ∈ GR.flatMap Elem.names) ∨
      op = "repeat".toList ∧ (∀ w ∈ GL.flatMap Elem.names, w ∈ GR.flatMap Elem.names) ∧
        (∀ w ∈ GR.flatMap Elem.names, w ∈ GL.flatMap Elem.names ∨ w ∈ kw.map Prod.fst))
    (hkw : ∀ n ∈ kw.map Prod.fst, n ∈ GL.flatMap Elem.names ++ GR.flatMap Elem.names)
    (hs : x.shape = GL.map (Elem.size val)) (hlk : ∀ p ∈ kw, (val p.1 : Int) = p.2.val)
    (hone : ∀ e ∈ GL, (e.names.filter fun w => decide (w ∉ kw.map Prod.fst)).length ≤ 1)
    (hdet : ∀ e ∈ GL, (∃ w ∈ e.names, w ∉ kw.map Prod.fst) → ∀ w ∈ e.names, w ∈ kw.map Prod.fst → val w ≠ 0) :
    ∃ y, (∀ so, reduce b so (.one x) q (.name op) kw = .ok y) ∧ y.shape = GR.map (Elem.size val) ∧
      ∀ c : Str → Nat, (∀ w ∈ GR.flatMap Elem.names, c w < val w) →
        y.at? (GR.map (Elem.pos val c)) = x.at? (GL.map (Elem.pos val c)) := by
  have hsub : ∀ w ∈ GL.flatMap Elem.names, w ∈ GR.flatMap Elem.names := by
    rcases hop with ⟨-, h⟩ | ⟨-, h, -⟩
    · exact fun w hw => (h w).1 hw
    · exact h
  have hacc := plain_accepted (op := .name op) hL hR hq (by
    rcases hop with ⟨rfl, h⟩ | ⟨rfl, h⟩
    · exact .inl ⟨rfl, h⟩
    · exact .inr (.inl ⟨rfl, h⟩)) hkw hs hlk hone hdet
  obtain ⟨y, h1, h2, h3⟩ := hacc.moves (red := .name op) hb.lawful hik (by
    rw [plain_flatten, plain_flatten]
    intro a ha
    obtain ⟨w, hw, rfl⟩ := List.mem_map.1 ha
    exact List.mem_map_of_mem (hsub w hw))
  refine ⟨y, h1, by rw [h2, plain_size], fun c hc => ?_⟩
  obtain ⟨v, h4, h5⟩ := h3 (ofNames c) (by
    rw [plain_flatten, plain_flatten]
    intro a ha
    rcases List.mem_append.1 ha with ha | ha
    · obtain ⟨w, hw, rfl⟩ := List.mem_map.1 ha
      exact hc w (hsub w hw)
    · obtain ⟨w, hw, rfl⟩ := List.mem_map.1 ha
      exact hc w hw)
  unfold Tensor.atAxes at h4 h5
  rw [plain_pos] at h4 h5
  rw [h4, h5]

/-- A batch of `N` tensors of shape `s`, `f m i` being the element `i` of tensor number `m`: one tensor, or a list. -/
inductive Batch : Input α → Nat → List Nat → (Nat → List Nat → Option α) → Prop
  | one {x : Tensor α} {N : Nat} {s : List Nat} : x.shape = N :: s → Batch (.one x) N s (fun m i => x.at? (m :: i))
  | many {xs : List (Tensor α)} {s : List Nat} : xs ≠ [] → (∀ x ∈ xs, x.shape = s) →
      Batch (.many xs) xs.length s (fun m i => (xs[m]?).bind fun x => x.at? i)

theorem Batch.one_tensor {E : ElemOps α} {b : Backend α} (hb : Modelled E b) {X : Input α} {N : Nat} {s : List Nat}
    {f : Nat → List Nat → Option α} (h : Batch X N s f) : ∃ z : Tensor α, z.shape = N :: s ∧ (∀ m i, z.at? (m :: i) = f m i) ∧
      ∀ so pattern red kw, reduce b so X pattern red kw = reduce b so (.one z) pattern red kw := by
  cases h with
  | one hx => exact ⟨_, hx, fun _ _ => rfl, fun _ _ _ _ => rfl⟩
  | many hne hs => exact many_eq_one hb hne hs

/-- values for distinct names -/
theorem values_of_names {ns : List Str} (hn : ns.Nodup) {vs : List Nat} (hl : vs.length = ns.length) :
    ∃ val : Str → Nat, ns.map val = vs := by
  have := map_envOf (A := ns.map Axis.str) (hn.map fun _ _ h => by cases h; rfl) (i := vs) (by simpa using hl)
  exact ⟨fun w => envOf (ns.map Axis.str) vs (.str w), by rw [List.map_map] at this; exact this⟩

/-- the coordinates `c` with the names `ds` running through all their values, the last one fastest -/
def coords (val : Str → Nat) : List Str → (Str → Nat) → List (Str → Nat)
  | [], c => [c]
  | d :: ds, c => (List.range (val d)).flatMap fun i => coords val ds (fun w => if w = d then i else c w)

omit [PyUnicode] in
theorem loops_names (val : Str → Nat) (ds : List Str) (c : Str → Nat) :
    loops (ofNames val) (ds.map Axis.str) (ofNames c) = (coords val ds c).map ofNames := by
  induction ds generalizing c with
  | nil => rfl
  | cons d ds ih =>
    rw [List.map_cons, loops, coords, List.map_flatMap]
    refine List.flatMap_congr fun i _ => ?_
    rw [← ih]
    congr 1
    funext a
    cases a with
    | str w => simp [setCoord, ofNames]
    | anon sd k v => simp [setCoord, ofNames]

/-- A reduction, sides made of names and units. -/
theorem plain_reduces {E : ElemOps α} {b : Backend α} {o : Str} (hb : Computes E o b) (ho : o ∈ builtins) {q : Str}
    {GL GR : List Elem} {kw : List (Str × Size)} (hik : IntKw kw) {x : Tensor α} {val : Str → Nat}
    (hf : o = "mean".toList → b.isFloat x = true)
    (hL : ∀ w ∈ sideWords GL, Plain w) (hR : ∀ w ∈ sideWords GR, Plain w) (hq : IsPattern q GL GR)
    (hop : ∀ w ∈ GR.flatMap Elem.names, w ∈ GL.flatMap Elem.names)
    (hdrop : ∃ w ∈ GL.flatMap Elem.names, w ∉ GR.flatMap Elem.names)
    (hkw : ∀ n ∈ kw.map Prod.fst, n ∈ GL.flatMap Elem.names ++ GR.flatMap Elem.names)
    (hs : x.shape = GL.map (Elem.size val)) (hlk : ∀ p ∈ kw, (val p.1 : Int) = p.2.val)
    (hone : ∀ e ∈ GL, (e.names.filter fun w => decide (w ∉ kw.map Prod.fst)).length ≤ 1)
    (hdet : ∀ e ∈ GL, (∃ w ∈ e.names, w ∉ kw.map Prod.fst) → ∀ w ∈ e.names, w ∈ kw.map Prod.fst → val w ≠ 0)
    (so : SetOrder) (y : Tensor α) :
    reduce b so (.one x) q (.name o) kw = .ok y ↔ y.shape = GR.map (Elem.size val) ∧
      ∀ c : Str → Nat, (∀ w ∈ GR.flatMap Elem.names, c w < val w) →
        ∃ vs v, (coords val ((GL.flatMap Elem.names).filter fun w => decide (w ∉ GR.flatMap Elem.names)) c).map
            (fun e => x.at? (GL.map (Elem.pos val e))) = vs.map some ∧
          E.op o vs = .ok v ∧ y.at? (GR.map (Elem.pos val c)) = some v := by
  have hacc := plain_accepted (op := .name o) hL hR hq
    (.inr (.inr ⟨red_names_isRed ho, fun s hs => by cases hs; exact ho, hop⟩)) hkw hs hlk hone hdet
  have hd : Drops (plainGroups GL) (plainGroups GR) := by
    obtain ⟨w, h1, h2⟩ := hdrop
    refine ⟨.str w, ?_, ?_⟩
    · rw [plain_flatten]; exact List.mem_map_of_mem h1
    · rw [plain_flatten, List.mem_map]; rintro ⟨v, hv, h⟩; cases h; exact h2 hv
  have hfil : (plainGroups GL).flatten.filter (fun a => decide (a ∉ (plainGroups GR).flatten)) =
      ((GL.flatMap Elem.names).filter fun w => decide (w ∉ GR.flatMap Elem.names)).map Axis.str := by
    rw [plain_flatten, plain_flatten, List.filter_map]
    congr 1
    refine List.filter_congr fun w _ => decide_eq_decide.2 (not_congr ?_)
    exact ⟨fun h => by obtain ⟨v, hv, h⟩ := List.mem_map.1 h; cases h; exact hv, fun h => List.mem_map_of_mem h⟩
  have hvals : ∀ c : Str → Nat, (loops (ofNames val) ((plainGroups GL).flatten.filter fun a => decide (a ∉ (plainGroups GR).flatten))
      (ofNames c)).map (x.atAxes (plainGroups GL) (ofNames val)) =
        (coords val ((GL.flatMap Elem.names).filter fun w => decide (w ∉ GR.flatMap Elem.names)) c).map
          (fun e => x.at? (GL.map (Elem.pos val e))) := by
    intro c
    rw [hfil, loops_names, List.map_map]
    refine List.map_congr_left fun e _ => ?_
    rw [Function.comp_apply, Tensor.atAxes, plain_pos]
  rw [reduce_of_accepted hb ho hik (isPattern_split hq).1 hacc]
  constructor
  · rintro (⟨h, -⟩ | ⟨-, -, h1, h2⟩)
    · exact absurd hd h
    · refine ⟨by rw [h1, plain_size], fun c hc => ?_⟩
      obtain ⟨vs, v, h3, h4, h5⟩ := h2 (ofNames c) (by
        rw [plain_flatten]
        intro a ha
        obtain ⟨w, hw, rfl⟩ := List.mem_map.1 ha
        exact hc w hw)
      rw [hvals] at h3
      rw [Tensor.atAxes, plain_pos] at h5
      exact ⟨vs, v, h3, h4, h5⟩
  · rintro ⟨h1, h2⟩
    refine .inr ⟨hd, hf, by rw [h1, plain_size], fun env henv => ?_⟩
    rw [plain_flatten] at henv
    obtain ⟨vs, v, h3, h4, h5⟩ := h2 (fun w => env (.str w)) (fun w hw => henv (.str w) (List.mem_map_of_mem hw))
    refine ⟨vs, v, ?_, h4, ?_⟩
    · rw [← hvals] at h3
      rw [← h3, hfil]
      refine loops_base (U := (plainGroups GL).flatten) (fun e e' h => ?_) (fun a ha _ => ?_)
      · unfold Tensor.atAxes
        congr 1
        exact List.map_congr_left fun g hg => groupPos_congr (fun a ha => h a (List.mem_flatten.2 ⟨g, hg, ha⟩)) (fun _ _ => rfl)
      · rw [plain_flatten] at ha
        obtain ⟨w, hw, rfl⟩ := List.mem_map.1 ha
        rfl
    · rw [Tensor.atAxes, ← h5, ← plain_pos]
      congr 1
      refine List.map_congr_left fun g hg => ?_
      obtain ⟨e, he, rfl⟩ := List.mem_map.1 hg
      refine groupPos_congr (fun a ha => ?_) (fun _ _ => rfl)
      obtain ⟨w, hw, rfl⟩ := List.mem_map.1 ha
      rfl

theorem names_bare {w : Str} (h : IsName false w) : (Elem.bare w).names = [w] := by
  simp [Elem.names, Elem.words, isName_not_number false h]

theorem names_paren {ws : List Str} (h : ∀ w ∈ ws, IsName false w) : (Elem.paren ws).names = ws := by
  simp only [Elem.names, Elem.words]
  exact List.filter_eq_self.2 fun w hw => decide_eq_true (isName_not_number false (h w hw))

theorem names_unit {w : Str} (h : IsNumber w) : (Elem.bare w).names = [] := by
  simp [Elem.names, Elem.words, h]

/-- an element without axes: `1` or `()` -/
def UnitElem (e : Elem) : Prop := e = .bare ['1'] ∨ e = .paren []

theorem one_number : IsNumber (['1'] : Str) ∧ decimalValue ['1'] = 1 := by
  have h := (PyUnicode.ascii_digit '1' (by decide)).2.1
  exact ⟨⟨by simp, fun c hc => by rw [List.mem_singleton.1 hc]; exact ⟨_, h⟩⟩, by simp [decimalValue, h]⟩

theorem isUnit_names {e : Elem} (h : UnitElem e) : e.names = [] := by
  rcases h with rfl | rfl
  · exact names_unit one_number.1
  · rfl

theorem isUnit_words {e : Elem} (h : UnitElem e) : ∀ s ∈ e.words, IsNumber s ∧ decimalValue s = 1 := by
  rcases h with rfl | rfl
  · intro s hs
    obtain rfl := List.mem_singleton.1 hs
    exact one_number
  · intro s hs
    cases hs

end

end Einops
