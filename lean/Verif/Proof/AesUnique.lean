import Verif.Spec.Aes

/-! # The key schedule determines the cipher -/

namespace TinyGarble.Proof.Aes

open TinyGarble.Spec

theorem schedule_unique {nk : Nat} (hnk : 0 < nk) {key w w' : Nat → Aes.Word} (h : Aes.KeySchedule nk key w) (h' : Aes.KeySchedule nk key w') :
    ∀ i < 4 * (nk + 7), w i = w' i := by
  intro i
  induction i using Nat.strongRecOn with
  | _ i ih =>
    intro hi
    by_cases hs : i < nk
    · rw [h.start i hs, h'.start i hs]
    · rw [h.step i (by omega) hi, h'.step i (by omega) hi, ih (i - nk) (by omega) (by omega), ih (i - 1) (by omega) (by omega)]

theorem addRoundKey_congr {w w' : Nat → Aes.Word} {n : Nat} (h : ∀ c < 4, w (4 * n + c) = w' (4 * n + c)) (s : Aes.State) :
    Aes.addRoundKey w n s = Aes.addRoundKey w' n s := by
  funext r c
  show s r c ^^^ w (4 * n + c.val) r = s r c ^^^ w' (4 * n + c.val) r
  rw [h c.val c.isLt]

theorem rounds_congr {w w' : Nat → Aes.Word} (s : Aes.State) : ∀ n, (∀ i < 4 * (n + 1), w i = w' i) → Aes.rounds w s n = Aes.rounds w' s n
  | 0, h => addRoundKey_congr (fun c hc => h _ (by omega)) s
  | n + 1, h => by
    unfold Aes.rounds
    rw [rounds_congr s n fun i hi => h i (by omega)]
    exact addRoundKey_congr (fun c hc => h _ (by omega)) _

theorem cipher_congr {w w' : Nat → Aes.Word} {nr : Nat} (h : ∀ i < 4 * (nr + 1), w i = w' i) (s : Aes.State) : Aes.cipher nr w s = Aes.cipher nr w' s := by
  unfold Aes.cipher
  rw [rounds_congr s (nr - 1) fun i hi => h i (by omega)]
  exact addRoundKey_congr (fun c hc => h _ (by omega)) _

end TinyGarble.Proof.Aes
