import Verif.Model.Verilog
import Verif.Spec.Verilog

/-! # The words of a Verilog file -/

namespace TinyGarble.Proof
open TinyGarble.Spec

/-- Characters of a word. -/
def inWord (ch : Char) : Bool := !(separates ch || decide (ch = ';'))

theorem lexemesFrom_take (l : List Char) : ∀ w,
    lexemesFrom w l = flush (w ++ l.takeWhile inWord) ++ lexemesFrom [] (l.dropWhile inWord) := by
  induction l with
  | nil => intro w; simp [lexemesFrom, flush]
  | cons ch l ih =>
    intro w
    by_cases h1 : separates ch = true
    · simp [lexemesFrom, inWord, h1, flush]
    · by_cases h2 : ch = ';'
      · subst h2
        have : separates ';' = false := by decide
        simp [lexemesFrom, inWord, this, flush]
      · have hw : inWord ch = true := by simp [inWord, h1, h2]
        rw [lexemesFrom, if_neg h1, if_neg h2, ih, List.takeWhile_cons, if_pos hw, List.dropWhile_cons, if_pos hw]
        simp

theorem separates_eq {ch : Char} (h : ch ≠ '\n') : separates ch = isDropped ch := by
  simp [separates, isDropped, h, Bool.or_assoc]

theorem lexemes_drop (l : List Char) (h : '\n' ∉ l) : lexemes l = lexemes (l.dropWhile isDropped) := by
  induction l with
  | nil => rfl
  | cons ch l ih =>
    rw [List.dropWhile_cons]
    split
    · rename_i hd
      have hs : separates ch = true := by
        rw [separates_eq (fun e => h (by rw [e]; exact List.mem_cons_self))]; exact hd
      refine Eq.trans ?_ (ih (fun hm => h (List.mem_cons_of_mem _ hm)))
      simp [lexemes, lexemesFrom, hs, flush]
    · rfl

theorem inWord_eq {l : List Char} (h : '\n' ∉ l) : ∀ ch ∈ l, inWord ch = !(isDropped ch || isKept ch) := by
  intro ch hm
  unfold inWord isKept
  rw [separates_eq (fun e => h (by rw [← e]; exact hm))]

theorem takeWhile_congr' {p q : Char → Bool} {l : List Char} (h : ∀ ch ∈ l, p ch = q ch) :
    l.takeWhile p = l.takeWhile q ∧ l.dropWhile p = l.dropWhile q := by
  induction l with
  | nil => exact ⟨rfl, rfl⟩
  | cons ch l ih =>
    have hc := h ch List.mem_cons_self
    have := ih (fun c hm => h c (List.mem_cons_of_mem _ hm))
    rw [List.takeWhile_cons, List.takeWhile_cons, List.dropWhile_cons, List.dropWhile_cons, hc, this.1, this.2]
    exact ⟨rfl, rfl⟩

theorem tokens_lexemes (n : Nat) : ∀ l : List Char, l.length ≤ n → '\n' ∉ l → tokens l = lexemes l := by
  induction n with
  | zero =>
    intro l hl _
    obtain rfl : l = [] := List.length_eq_zero_iff.1 (by omega)
    rw [tokens]
    rfl
  | succ n ih =>
    intro l hl hn
    have hsub := List.dropWhile_sublist (p := isDropped) (l := l)
    rw [tokens, lexemes_drop l hn]
    have hn' : '\n' ∉ l.dropWhile isDropped := fun hm => hn (hsub.mem hm)
    have hlen := hsub.length_le
    split
    · rename_i e
      unfold nextToken at e
      split at e
      · rename_i e'
        rw [e']; rfl
      · split at e <;> cases e
    · rename_i r e
      unfold nextToken at e
      split at e
      · cases e
      · rename_i ch t e'
        rw [e'] at hn' hlen ⊢
        rw [List.length_cons] at hlen
        have hch : ch ≠ '\n' := fun h => hn' (by rw [h]; exact List.mem_cons_self)
        have ht : '\n' ∉ t := fun hm => hn' (List.mem_cons_of_mem _ hm)
        have hnd : isDropped ch = false := by
          have := List.head?_dropWhile_not isDropped l
          rw [e'] at this
          simpa using this
        split at e
        · rename_i hk
          obtain rfl := Option.some.inj e
          have hc : ch = ';' := by simpa [isKept] using hk
          subst hc
          have : separates ';' = false := by decide
          simp only
          rw [ih t (by omega) ht]
          simp [lexemes, lexemesFrom, this, flush]
        · rename_i hk
          obtain rfl := Option.some.inj e
          have hc := takeWhile_congr' (inWord_eq ht)
          have hd := List.dropWhile_sublist (p := inWord) (l := t)
          simp only
          rw [← hc.2, ← hc.1, ih _ (by have := hd.length_le; omega) (fun hm => ht (hd.mem hm))]
          have h1 : separates ch = false := by rw [separates_eq hch]; exact hnd
          have h2 : ¬ ch = ';' := by simpa [isKept] using hk
          unfold lexemes
          conv => rhs; rw [lexemesFrom, if_neg (by simp [h1]), if_neg h2, lexemesFrom_take]
          simp [flush]

theorem lexemes_line (l : List Char) (rest : List Char) : ∀ w,
    lexemesFrom w (l ++ '\n' :: rest) = lexemesFrom w l ++ lexemes rest := by
  induction l with
  | nil =>
    intro w
    have : separates '\n' = true := by decide
    simp [lexemesFrom, this, lexemes]
  | cons ch l ih =>
    intro w
    rw [List.cons_append, lexemesFrom, lexemesFrom]
    split
    · rw [ih, List.append_assoc]
    · split
      · simp only [ih, List.append_assoc]
      · exact ih _

theorem fileLines_ne (l : List Char) : fileLines l ≠ [] := by
  cases l with
  | nil => simp [fileLines]
  | cons ch l =>
    rw [fileLines]
    split
    · simp
    · split <;> simp

theorem fileLines_cons {l line : List Char} {rest : List (List Char)} (h : fileLines l = line :: rest) :
    '\n' ∉ line ∧ ((rest = [] ∧ l = line) ∨ ∃ l', l = line ++ '\n' :: l' ∧ fileLines l' = rest) := by
  induction l generalizing line rest with
  | nil =>
    rw [fileLines] at h
    cases h
    exact ⟨by simp, Or.inl ⟨rfl, rfl⟩⟩
  | cons ch l ih =>
    rw [fileLines] at h
    split at h
    · rename_i hc
      subst hc
      cases h
      exact ⟨by simp, Or.inr ⟨l, rfl, rfl⟩⟩
    · rename_i hc
      split at h
      · rename_i e
        exact absurd e (fileLines_ne l)
      · rename_i x xs e
        obtain ⟨rfl, rfl⟩ := List.cons_eq_cons.1 h
        obtain ⟨h1, h2⟩ := ih e
        refine ⟨?_, ?_⟩
        · intro hm
          rcases List.mem_cons.1 hm with hm | hm
          · exact hc hm.symm
          · exact h1 hm
        · rcases h2 with ⟨a, b⟩ | ⟨l', a, b⟩
          · exact Or.inl ⟨a, by rw [b]⟩
          · exact Or.inr ⟨l', by rw [a]; rfl, b⟩

theorem parseTokens_append (log : Bool) (a b : List Name) : ∀ p, parseTokens log p (a ++ b) = match parseTokens log p a with
    | .next p' => parseTokens log p' b
    | r => r := by
  induction a with
  | nil => intro p; rfl
  | cons w a ih =>
    intro p
    rw [List.cons_append, parseTokens, parseTokens]
    cases parseToken log p w with
    | next p' => exact ih p'
    | endmodule s => rfl
    | failure => rfl
    | undef => rfl

/-- Reading line by line is reading all words. -/
theorem parseLines_lexemes (log : Bool) (rest : List (List Char)) : ∀ (file : List Char) (p : ParseState), fileLines file = rest →
    parseLines log p rest = match parseTokens log p (lexemes file) with
      | .next _ => if log then .failure else .undef
      | r => r := by
  induction rest with
  | nil => intro file p h; exact absurd h (fileLines_ne file)
  | cons line rest ih =>
    intro file p h
    obtain ⟨hn, hcase⟩ := fileLines_cons h
    rw [parseLines, tokens_lexemes line.length line (Nat.le_refl _) hn]
    rcases hcase with ⟨rfl, rfl⟩ | ⟨l', rfl, hl⟩
    · cases parseTokens log p (lexemes file) <;> rfl
    · have e : lexemes (line ++ '\n' :: l') = lexemes line ++ lexemes l' := lexemes_line line l' []
      rw [e, parseTokens_append]
      cases parseTokens log p (lexemes line) with
      | next p' => exact ih l' p' hl
      | endmodule s => rfl
      | failure => rfl
      | undef => rfl

end TinyGarble.Proof
