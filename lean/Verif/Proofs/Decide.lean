import Verif.Proofs.Sides
import Verif.EinsumSpec

/-!
# The specification of patterns can be decided

Used only for the examples beside the theorems: whether a concrete string is a legal side can be computed.
-/

namespace Einops

def lexFlush (w : Str) : List Tok := if w = [] then [] else [.word w]

/-- tokens of a string, `w` being the letters read of the current word -/
def lexer : Str → Str → List Tok
  | w, [] => lexFlush w
  | w, c :: s =>
    if c = ' ' then lexFlush w ++ lexer [] s
    else if c = '(' then lexFlush w ++ .lp :: lexer [] s
    else if c = ')' then lexFlush w ++ .rp :: lexer [] s
    else lexer (w ++ [c]) s

theorem lexes_flush {w s : Str} {ts : List Tok} (hw : ∀ c ∈ w, ¬ isSep c) (hs : ∀ c ∈ s.head?, isSep c) (h : Lexes s ts) :
    Lexes (w ++ s) (lexFlush w ++ ts) := by
  unfold lexFlush
  split
  · rename_i e; subst e; exact h
  · rename_i e; exact .word e hw hs h

theorem lexer_lexes (w s : Str) (hw : ∀ c ∈ w, ¬ isSep c) : Lexes (w ++ s) (lexer w s) := by
  induction s generalizing w with
  | nil =>
    have := lexes_flush (s := []) (ts := []) hw (by simp) .nil
    simpa [lexer] using this
  | cons c s ih =>
    unfold lexer
    split
    · rename_i e; subst e
      exact lexes_flush hw (by simp [isSep]) (.space (ih [] (by simp)))
    · split
      · rename_i e; subst e
        exact lexes_flush hw (by simp [isSep]) (.lp (ih [] (by simp)))
      · split
        · rename_i e; subst e
          exact lexes_flush hw (by simp [isSep]) (.rp (ih [] (by simp)))
        · rename_i h1 h2 h3
          have := ih (w ++ [c]) (by
            intro d hd
            rcases List.mem_append.1 hd with hd | hd
            · exact hw d hd
            · rw [List.mem_singleton.1 hd]; simp [isSep, h1, h2, h3])
          simpa using this

theorem lexes_iff {s : Str} {ts : List Tok} : Lexes s ts ↔ lexer [] s = ts :=
  ⟨fun h => (lexer_lexes [] s (by simp)).unique h, fun h => h ▸ lexer_lexes [] s (by simp)⟩

instance (s : Str) (ts : List Tok) : Decidable (Lexes s ts) := decidable_of_iff _ lexes_iff.symm

variable [PyUnicode]

theorem isSide_iff {u d : Bool} {s : Str} {G : List Elem} : IsSide u d s G ↔
    Lexes s (G.flatMap Elem.toks) ∧ (∀ w ∈ G.flatMap Elem.words, WordOK u w) ∧ (G.flatMap Elem.words).count dots ≤ 1 ∧
      (d = false → ((G.flatMap Elem.words).filter (unrepeatable u)).Nodup) :=
  ⟨fun h => ⟨h.lexes, h.words_ok, h.one_ellipsis, h.nodup⟩, fun ⟨a, b, c, d⟩ => ⟨a, b, c, d⟩⟩

instance (u d : Bool) (s : Str) (G : List Elem) : Decidable (IsSide u d s G) := decidable_of_iff _ isSide_iff.symm

end Einops
