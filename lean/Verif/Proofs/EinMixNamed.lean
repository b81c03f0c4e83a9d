import Verif.Props.EinMixLaws
import Verif.Proofs.Documented

/-!
# `EinMix` with patterns made of names and units
-/

namespace Einops

universe u

section
variable {α : Type u} [PyUnicode]

theorem axisWords_names (G : List Elem) : axisWords G = G.flatMap Elem.names := by
  unfold axisWords sideWords
  induction G with
  | nil => rfl
  | cons e G ih => rw [List.flatMap_cons, List.filter_append, ih, List.flatMap_cons]; rfl

theorem nameWords_names {G : List Elem} (h : ∀ w ∈ sideWords G, Plain w) : nameWords G = G.flatMap Elem.names := by
  unfold nameWords
  rw [axisWords_names, List.filter_eq_self]
  intro w hw
  simpa using plain_ne_dots (h w (mem_names.1 hw).1)

/-- sizes for names -/
def sizesFor (ks : List Str) (val : Str → Nat) : List (Str × Size) := ks.map fun k => (k, ⟨val k, true⟩)

omit [PyUnicode] in
theorem sizesFor_names (ks : List Str) (val : Str → Nat) : (sizesFor ks val).map Prod.fst = ks := by
  simp [sizesFor, Function.comp_def]

omit [PyUnicode] in
theorem mem_sizesFor {ks : List Str} {val : Str → Nat} {n : Str} {s : Size} :
    (n, s) ∈ sizesFor ks val ↔ n ∈ ks ∧ s = ⟨val n, true⟩ := by
  simp only [sizesFor, List.mem_map, Prod.mk.injEq]
  exact ⟨fun ⟨k, h1, h2, h3⟩ => ⟨h2 ▸ h1, by rw [← h3, h2]⟩, fun ⟨h1, h2⟩ => ⟨n, h1, rfl, h2.symm⟩⟩

variable [CommSemiring α]

theorem plain_mix {so : Nat → SetOrder} {q weight : Str} {bias : Option Str} {GL GR GW GB : List Elem} {ks : List Str}
    {val : Str → Nat} (hL : ∀ w ∈ sideWords GL, Plain w) (hR : ∀ w ∈ sideWords GR, Plain w)
    (hW : ∀ w ∈ sideWords GW, IsName false w) (hB : ∀ w ∈ sideWords GB, Plain w)
    (hq : IsPattern q GL GR) (hw : IsSide false false weight GW) (hb : ∀ t, bias = some t → IsSide false false t GB)
    (hks : ks.Nodup) (hr : ∀ v ∈ GR.flatMap Elem.names, v ∈ GL.flatMap Elem.names ∨ v ∈ sideWords GW)
    (hflat : ∀ ws, Elem.paren ws ∉ GW)
    (hone : ∀ e ∈ GL, (e.names.filter fun w => decide (w ∉ ks)).length ≤ 1)
    (hsz : ∀ v ∈ sideWords GW, v ∈ ks) (hused : ∀ v ∈ ks, v ∈ GL.flatMap Elem.names ∨ v ∈ sideWords GW)
    (hwu : ∀ v ∈ sideWords GW, v ∈ GL.flatMap Elem.names ∨ v ∈ GR.flatMap Elem.names)
    (hbs : bias ≠ none → ∀ v ∈ GB.flatMap Elem.names, v ∈ GR.flatMap Elem.names ∧ v ∈ ks)
    (hfan : ∀ v ∈ sideWords GW, v ∉ GR.flatMap Elem.names → val v ≠ 0)
    (h26 : distinct (GL.flatMap Elem.names ++ GR.flatMap Elem.names ++ sideWords GW) ≤ 26)
    (hdet : ∀ e ∈ GL, (∃ w ∈ e.names, w ∉ ks) → ∀ w ∈ e.names, w ∈ ks → val w ≠ 0) :
    ∃ m : EinMix α, makeEinMix so q weight bias (sizesFor ks val) = .ok m ∧ m.weightShape = (sideWords GW).map val ∧
      m.biasShape = bias.map (fun _ => (GR.flatMap Elem.names).map fun v => if v ∈ GB.flatMap Elem.names then val v else 1) ∧
      ∀ (call : Layer α → Tensor α → Py (Tensor α)) (f : Str → List (Tensor α) → Py (Tensor α)) (x w : Tensor α)
        (b : Option (Tensor α)), LayerCall call → EinsumLawful f → x.shape = GL.map (Elem.size val) → w.shape = m.weightShape →
        b.map Tensor.shape = m.biasShape →
        ∃ y, m.forward call f w b x = .ok y ∧ y.shape = GR.map (Elem.size val) ∧
          ∀ S : List Str, S.Nodup →
            (∀ v, v ∈ S ↔ (v ∈ GL.flatMap Elem.names ∨ v ∈ sideWords GW) ∧ v ∉ GR.flatMap Elem.names) →
            ∀ c : Str → Nat, (∀ v ∈ GR.flatMap Elem.names, c v < val v) →
              y.at? (GR.map (Elem.pos val c)) =
                some (((coords val S c).map fun e => entry x (GL.map (Elem.pos val e)) * entry w ((sideWords GW).map e)).sum +
                  b.elim 0 fun b => entry b ((GR.flatMap Elem.names).map fun v => if v ∈ GB.flatMap Elem.names then c v else 0)) := by
  have hks1 : (sizesFor ks val).map Prod.fst = ks := sizesFor_names ks val
  have dL : dots ∉ sideWords GL := fun h => plain_ne_dots (hL _ h) rfl
  have dR : dots ∉ sideWords GR := fun h => plain_ne_dots (hR _ h) rfl
  have dW : dots ∉ sideWords GW := fun h => isName_ne_dots (hW _ h) rfl
  have nW : NoUnits GW := fun w hw => isName_not_number false (hW w hw)
  have units : ∀ {G : List Elem}, (∀ w ∈ sideWords G, Plain w) → OnlyUnits G :=
    fun hG w hw hn => ((hG w hw).resolve_left fun h => isName_not_number false h hn).2
  have he : ellipsisStr ∉ (sizesFor ks val).map Prod.fst := by
    rw [hks1]
    intro h
    rcases hused _ h with h | h
    · obtain ⟨l, r, -, hl, -⟩ := hq
      exact ne_ell hl (mem_names.1 h).1 rfl
    · exact ne_ell hw h rfl
  have hsides : EinmixSides GL GR GW ((sizesFor ks val).map Prod.fst) := by
    rw [hks1]
    refine ⟨?_, dW, iff_of_false dL dR, fun ws h hd => dL (List.mem_flatMap.2 ⟨_, h, hd⟩), units hL, units hR,
      fun w hw hn => absurd hn (nW w hw), hflat, ?_, ?_, ?_, ?_⟩
    · intro v hv
      rw [axisWords_names] at hv
      exact (hr v hv).imp_left fun h => (mem_names.1 h).1
    · intro ws hws
      refine le_trans (le_of_eq ?_) (hone _ hws)
      rw [Elem.names, List.filter_filter]
      congr 1
      refine List.filter_congr fun v _ => ?_
      simp [Bool.and_comm]
    · exact fun v hv => hsz v (mem_axisWords.1 hv).1
    · intro v hv
      rw [nameWords_names hL, nameWords_names (G := GW) (fun w hw => .inl (hW w hw))]
      exact (hused v hv).imp_right fun h => mem_names.2 ⟨h, nW v h⟩
    · intro v hv
      exact (hwu v (mem_axisWords.1 hv).1).imp (fun h => (mem_names.1 h).1) fun h => (mem_names.1 h).1
  have hints : IntKw (sizesFor ks val) := ⟨by rw [hks1]; exact hks, by
    intro p hp
    obtain ⟨k, -, rfl⟩ := List.mem_map.1 hp
    rfl⟩
  have hbl : BiasLegal GR ((sizesFor ks val).map Prod.fst) bias := by
    intro t ht
    rw [hks1]
    have := hbs (by rw [ht]; simp)
    refine ⟨GB, hb t ht, units hB, ?_, ?_, ?_⟩
    · intro v hv
      rw [axisWords_names] at hv
      exact (mem_names.1 (this v hv).1).1
    · intro v hv
      rw [axisWords_names] at hv
      exact (this v hv).2
    · intro p q' h
      exact absurd (by rw [h]; simp) dR
  obtain ⟨m, hm, hp⟩ := (C30_outcome (α := α) (so := so) he (fun t ht => isSide_no_special (hb t ht) (by simp)) hints.nodup hq hw
    hsides).2.2.2.2.2 nW hbl (by
      intro v s hv hv' hs
      rw [(mem_sizesFor.1 hs).2]
      have := hfan v hv (fun h => hv' (mem_names.1 h).1)
      simpa using this) (by
      intro v s hs _
      rw [(mem_sizesFor.1 hs).2]
      simp) (by
      unfold LettersOK
      rw [nameWords_names hL, nameWords_names hR, nameWords_names (G := GW) (fun w hw => .inl (hW w hw)), ← axisWords_names GW]
      rw [axisWords, List.filter_eq_self.2 (fun w hw => by simpa using nW w hw)]
      exact h26)
  have hfit : ∀ n s, (n, s) ∈ sizesFor ks val → (ofNames val (.str n) : Int) = s.val := by
    intro n s h
    rw [(mem_sizesFor.1 h).2]
    rfl
  have hws : m.weightShape = (sideWords GW).map val := by
    rw [weight_dims hfit hp.weight, List.map_map]
    rfl
  refine ⟨m, hm, hws, ?_, ?_⟩
  · cases hbias : bias with
    | none => exact hp.no_bias hbias
    | some t =>
      obtain ⟨bd, h1, h2⟩ := hp.bias t GB hbias (hb t hbias)
      rw [h1, Option.map_some, Option.some.injEq]
      rw [nameWords_names hR] at h2
      clear h1
      have hmem : ∀ v ∈ GR.flatMap Elem.names, (v ∈ sideWords GB ↔ v ∈ GB.flatMap Elem.names) := by
        intro v hv
        rw [mem_names]
        exact ⟨fun h => ⟨h, (mem_names.1 hv).2⟩, fun h => h.1⟩
      have hval : ∀ v d, WeightDim (sizesFor ks val) v d → d = val v := by
        rintro v d ⟨s, h3, h4⟩
        rw [(mem_sizesFor.1 h3).2] at h4
        simpa using h4
      revert h2 hmem
      generalize GR.flatMap Elem.names = rn
      intro h2 hmem
      induction h2 with
      | nil => rfl
      | cons h3 _ ih =>
        rw [List.map_cons, ← ih (fun v hv => hmem v (by simp [hv]))]
        congr 1
        have := hmem _ (List.mem_cons_self ..)
        rcases h3 with ⟨h4, h5⟩ | ⟨h4, h5⟩
        · rw [if_pos (this.1 h4)]
          exact hval _ _ h5
        · rw [if_neg (fun h => h4 (this.2 h)), h5]
  · intro call f x w b hcall hf hx hwsh hbsh
    have hG : Groups GL GR x.shape.length (plainGroups GL) (plainGroups GR) :=
      ⟨0, fun _ => rfl, (spread_plain _ _ _ hL).symm, (spread_plain _ _ _ hR).symm, by simp [hx, plainGroups]⟩
    have hlegal : LegalMix so q weight bias (sizesFor ks val) m x.shape GL GR GW GB (plainGroups GL) (plainGroups GR) (ofNames val) := by
      refine ⟨he, hints, hq, hw, hb, hm, hG, ⟨by rw [hx, plain_size], hfit, fun _ _ _ _ => rfl⟩, ?_, .inl (fun h => absurd h dL)⟩
      intro g hg ⟨a, ha, hk⟩
      rw [hks1] at hk ⊢
      obtain ⟨e, he, rfl⟩ := List.mem_map.1 hg
      obtain ⟨v, hv, rfl⟩ := List.mem_map.1 ha
      have := hdet e he ⟨v, hv, by simpa [isKnown] using hk⟩
      unfold groupSize
      rw [Ne, List.prod_eq_zero_iff]
      intro h0
      obtain ⟨a, ha, h0⟩ := List.mem_map.1 h0
      rw [List.mem_filter] at ha
      obtain ⟨v, hv, rfl⟩ := List.mem_map.1 ha.1
      exact this v hv (by simpa [isKnown] using ha.2) h0
    obtain ⟨y, h1, h2⟩ := hlegal.result hcall hf hwsh hbsh
    refine ⟨y, h1, by rw [h2.1, plain_size], fun S hS hmem c hc => ?_⟩
    have h3 := h2.2 (S.map Axis.str) (hS.map fun _ _ h => by cases h; rfl) ?_ (ofNames c) ?_
    · unfold Tensor.atAxes at h3
      rw [plain_pos] at h3
      rw [h3, loops_names, List.map_map]
      congr 1
      congr 1
      · congr 2
        funext e
        simp only [Function.comp_apply, plain_pos, List.map_map]
        rfl
      · cases b with
        | none => rfl
        | some b =>
          simp only [biasAt, Option.elim]
          rw [nameWords_names hR]
          congr 1
          refine List.map_congr_left fun v hv => ?_
          have : v ∈ sideWords GB ↔ v ∈ GB.flatMap Elem.names := by
            rw [mem_names]
            exact ⟨fun h => ⟨h, (mem_names.1 hv).2⟩, fun h => h.1⟩
          simp only [this]
          rfl
    · intro a
      rw [plain_flatten, plain_flatten]
      simp only [List.mem_map]
      constructor
      · rintro ⟨v, hv, rfl⟩
        obtain ⟨h4, h5⟩ := (hmem v).1 hv
        refine ⟨h4.imp (fun h => ⟨v, h, rfl⟩) fun h => ⟨v, h, rfl⟩, ?_⟩
        rintro ⟨v', h6, h7⟩
        cases h7
        exact h5 h6
      · rintro ⟨⟨v, hv, rfl⟩ | ⟨v, hv, rfl⟩, h5⟩
        · exact ⟨v, (hmem v).2 ⟨.inl hv, fun h => h5 ⟨v, h, rfl⟩⟩, rfl⟩
        · exact ⟨v, (hmem v).2 ⟨.inr hv, fun h => h5 ⟨v, h, rfl⟩⟩, rfl⟩
    · intro a ha
      rw [plain_flatten] at ha
      obtain ⟨v, hv, rfl⟩ := List.mem_map.1 ha
      exact hc v hv

end

end Einops
