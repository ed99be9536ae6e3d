import Verif.Spec.Chance
import Verif.Proof.Program
import Verif.Proof.Protocol
import Verif.Props.Run

/-! Executions without accident. -/

namespace TinyGarble
open Spec Proof

/-- What has to hold at the gates, from an execution without accident. -/
theorem GSim.facts {c : Circuit} (wf : WF c) {enc : Block → Block} {R : Block} {k : Nat} {gl : Nat → Block}
    {s : SState} {st : GState} {tabs : List Table} (G : GSim c enc R k c.gateSize gl s st tabs)
    (nc : NoCollisionG c s.sw st.wires) : GateFacts c enc R k gl s := by
  have hws := wireSize_eq c
  refine ⟨?_, ?_⟩
  · intro i hi f j f' j' e e' hne
    have nc := nc i hi f j f' j' e e' hne
    obtain ⟨q1, q2, q3, q4⟩ := fetch_sec (wf.in0 i hi) (by omega) (by simp) e
    obtain ⟨q1', q2', q3', q4'⟩ := fetch_sec (wf.in1 i hi) (by omega) (bad1_ne_sec (c.gate i).type) e'
    have l := G.lab _ (show (c.gate i).input0.toNat < c.wireSize by omega)
    have l' := G.lab _ (show (c.gate i).input1.toNat < c.wireSize by omega)
    rw [q4] at l; rw [q4'] at l'
    simp only [onSec_sec] at l l'
    rw [← l, ← l']; exact nc
  · intro i hi f j f' j' e e' ht
    rw [← G.gids] at hi
    obtain ⟨T, hT, rfl⟩ := List.mem_map.1 hi
    obtain ⟨f1, j1, f1', j1', F⟩ := G.table wf hT
    have s0 := F.sym0
    have s1 := F.sym1
    rw [e] at s0; rw [e'] at s1
    cases s0; cases s1
    exact F.label.symm

theorem GSim.noCollision {c : Circuit} (wf : WF c) {enc : Block → Block} {R : Block} {k : Nat} {gl : Nat → Block}
    {s : SState} {st : GState} {tabs : List Table} (G : GSim c enc R k c.gateSize gl s st tabs)
    (F : GateFacts c enc R k gl s) : NoCollisionG c s.sw st.wires := by
  have hws := wireSize_eq c
  intro i hi f j f' j' e e' hne
  have nc := F.nc i hi f j f' j' e e' hne
  obtain ⟨q1, q2, q3, q4⟩ := fetch_sec (wf.in0 i hi) (by omega) (by simp) e
  obtain ⟨q1', q2', q3', q4'⟩ := fetch_sec (wf.in1 i hi) (by omega) (bad1_ne_sec (c.gate i).type) e'
  have l := G.lab _ (show (c.gate i).input0.toNat < c.wireSize by omega)
  have l' := G.lab _ (show (c.gate i).input1.toNat < c.wireSize by omega)
  rw [q4] at l; rw [q4'] at l'
  simp only [onSec_sec] at l l'
  rw [l, l']; exact nc

/-- When no table is dropped, the evaluator has no accident if the garbler has none. -/
theorem noAccident_of {S : Session} (ok : S.OK) {n : Nat}
    (need : ∀ k ≤ n, AllNeeded S.c (symRun S.c S.sfan S.x.pInit S.x.pInput k))
    (nc : ∀ k ≤ n, NoCollisionG S.c (symRun S.c S.sfan S.x.pInit S.x.pInput k).sw (S.g k).wires) :
    S.NoAccident n := by
  have hws := wireSize_eq S.c
  intro k hk
  refine ⟨nc k hk, ?_⟩
  obtain ⟨gl, el, pv, buf, _, h⟩ := run_post ok.wf ok.odd (fun g hg => fillFanout_counts ok.wf S.fan0 hg)
    ok.labels S.lowMem (fun _ => false) ok.gFresh ok.eFresh k (fun j hj => nc j (by omega))
    (fun j hj => .inr (need j (by omega)))
  have good : ∀ w, S.c.initSize ≤ w → w < S.c.wireSize → ∀ f i,
      (symRun S.c S.sfan S.x.pInit S.x.pInput k).sw w = .sec f i →
      (S.g k).wires w = gPair gl S.R f i ∧ (S.e k).wires w = el f ∧ Good S.R gl el pv f := by
    intro w h1 h2 f i ew
    have a1 := h.g.lab w h2
    have a2 := h.e.lab w h2
    have a3 := h.e.good w h1 (by omega) (fun g hg => need k hk g (by omega) f i (by rw [← hg]; exact ew))
    have ew : (symRun S.c (fun g => (fillFanout S.c S.fan0).1 g) S.x.pInit S.x.pInput k).sw w = .sec f i := ew
    rw [ew] at a1 a2 a3
    exact ⟨a1, a2, a3⟩
  intro i hi f j f' j' e e' hne
  have ncg := nc k hk i hi f j f' j' e e' hne
  obtain ⟨q1, q2, q3, q4⟩ := fetch_sec (ok.wf.in0 i hi) (by omega) (by simp) e
  obtain ⟨q1', q2', q3', q4'⟩ := fetch_sec (ok.wf.in1 i hi) (by omega) (bad1_ne_sec (S.c.gate i).type) e'
  obtain ⟨a1, a2, a3⟩ := good _ q2 (by omega) f j q4
  obtain ⟨b1, b2, b3⟩ := good _ q2' (by omega) f' j' q4'
  rw [a1, b1] at ncg
  rw [a2, b2]
  exact cmp_of_good a3 b3 ncg

theorem gin_init {P : Setting} {n : Nat} {ω : Coins P.c n} {k : Nat} (h : k < P.c.secretInitSize) {cid : Nat} :
    (P.gin ω cid).initLabels k = ⟨ω.init ⟨k, h⟩, ω.init ⟨k, h⟩ ^^^ ω.R⟩ := by
  unfold Setting.gin; exact dif_pos h

theorem gin_input {P : Setting} {n : Nat} {ω : Coins P.c n} {cid k : Nat} (hc : cid < n + 1)
    (h : k < P.c.secretInputSize) :
    (P.gin ω cid).inputLabels k = ⟨ω.input ⟨cid, hc⟩ ⟨k, h⟩, ω.input ⟨cid, hc⟩ ⟨k, h⟩ ^^^ ω.R⟩ := by
  unfold Setting.gin; exact dif_pos ⟨hc, h⟩

theorem gin_input' {P : Setting} {n : Nat} {ω : Coins P.c n} {cid k : Nat} (hc : ¬ cid < n + 1) :
    (P.gin ω cid).inputLabels k = ⟨zeroBlock, ω.R⟩ := by
  unfold Setting.gin; exact dif_neg fun h => hc h.1

/-- The garbler of the protocol has no accident if its random choices are no accident. -/
theorem session_noCollision {cap : Nat} {cr : Crypto} {c : Circuit} {A B : Args} {G : GEnv} {E : EEnv}
    (h : Setup cap cr c A B G E) {n : Nat} (nc : ¬ (settingOf c A G).Accident (coinsOf cr c A G n)) :
    ∀ k ≤ n, NoCollisionG c (symRun c (settingOf c A G).sfan A.pInit A.pInput k).sw
      ((sessionOf cr c A B G E).g k).wires := by
  have ok := session_ok h
  have nc : ∀ k ≤ n, NoCollisionG c (symRun c (settingOf c A G).sfan A.pInit A.pInput k).sw
      ((settingOf c A G).run (coinsOf cr c A G n) k).1.wires := by
    unfold Setting.Accident at nc; push Not at nc; exact nc
  have hsf : ∀ g < c.gateSize, (settingOf c A G).sfan g = totalFan c.gateSize (fun j => cnt c j g) + extUses c g :=
    fun g hg => fillFanout_counts h.wf G.fan0 hg
  obtain ⟨gl, L, GS⟩ := garbleRun_map h.wf ok.odd hsf (gin := (settingOf c A G).gin (coinsOf cr c A G n))
    (pInit := A.pInit) (pInput := A.pInput) (fun _ => ⟨rfl, rfl⟩)
    (fun k hk => by rw [gin_init hk]; rfl)
    (fun cid k hk => by
      by_cases h : cid < n + 1
      · rw [gin_input h hk]; rfl
      · rw [gin_input' h]
        show offsetOf G.rnd = zeroBlock ^^^ offsetOf G.rnd
        simp [zeroBlock])
    A.useLow h.gFresh n nc
  have F := fun k hk => (GS k hk).facts h.wf (nc k hk)
  have L' : GLabels c (sessionOf cr c A B G E).R (sessionOf cr c A B G E).gin gl n := by
    refine ⟨L.add, ?_, ?_⟩
    · intro k hk
      rw [← L.init k hk, gin_init hk]
      have e := initPairs_ok c A G k
      show initPairs c A G k = ⟨(initPairs c A G k).label0, (initPairs c A G k).label0 ^^^ offsetOf G.rnd⟩
      rw [← e]
    · intro cid hc k hk
      rw [← L.input cid hc k hk, gin_input (show cid < n + 1 by omega) hk]
      have e := inputPairs_ok c A G cid k
      show inputPairs c A G cid k = ⟨(inputPairs c A G cid k).label0, (inputPairs c A G cid k).label0 ^^^ offsetOf G.rnd⟩
      rw [← e]
  have GS' := garbleRun_check h.wf ok.odd hsf (gin := (sessionOf cr c A B G E).gin) (pInit := A.pInit)
    (pInput := A.pInput) (fun _ => ⟨rfl, rfl⟩) A.useLow h.gFresh L' F
  exact fun k hk => (GS' k hk).noCollision h.wf (F k hk)

end TinyGarble
