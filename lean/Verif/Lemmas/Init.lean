import Verif.Lemmas.Exec
import Verif.Lemmas.ImbeEval
import Verif.Model.Process

/-!
# The initialisers in closed form
-/

namespace Verif.Model
open Verif Verif.Gen Arith Verif.Num
variable {F : Type} [Arith F]
set_option linter.unusedSectionVars false

/-- Five arrays of 57 elements filled in one loop. -/
theorem fill5 (p : Parms F) (a c d e : F) :
    loop 57 (fun l (p : Parms F) => do
      let p := { p with Ml := ← p.Ml.wr l a }
      let p := { p with Vl := ← p.Vl.wr l 0 }
      let p := { p with log2Ml := ← p.log2Ml.wr l c }
      let p := { p with PHIl := ← p.PHIl.wr l d }
      pure { p with PSIl := ← p.PSIl.wr l e }) p =
    .ok { p with Ml := Arr.const 57 a, Vl := Arr.const 57 0, log2Ml := Arr.const 57 c, PHIl := Arr.const 57 d,
                 PSIl := Arr.const 57 e } := by
  obtain ⟨s, hs, h1, h2⟩ := loop_inv (n := 57) (f := fun l (p : Parms F) => do
      let p := { p with Ml := ← p.Ml.wr l a }
      let p := { p with Vl := ← p.Vl.wr l 0 }
      let p := { p with log2Ml := ← p.log2Ml.wr l c }
      let p := { p with PHIl := ← p.PHIl.wr l d }
      pure { p with PSIl := ← p.PSIl.wr l e }) (s := p)
    (fun k s => s = { p with Ml := s.Ml, Vl := s.Vl, log2Ml := s.log2Ml, PHIl := s.PHIl, PSIl := s.PSIl } ∧
      ∀ j : Fin 57, j.val < k → s.Ml j = a ∧ s.Vl j = 0 ∧ s.log2Ml j = c ∧ s.PHIl j = d ∧ s.PSIl j = e)
    ⟨rfl, by intro j h; omega⟩ (by
      intro i hi s hs
      simp only [Arr.wr_nat hi, ok_bind]
      refine Ok.pure ⟨?_, fun j hj => ?_⟩
      · dsimp only; rw [hs.1]
      · by_cases h : j.val = i
        · simp only [Arr.set_same h, and_self]
        · simp only [Arr.set_ne h]; exact hs.2 j (by omega))
  rw [hs, h1]
  congr 1
  have hM : s.Ml = Arr.const 57 a := funext fun j => (h2 j j.isLt).1
  have hV : s.Vl = Arr.const 57 0 := funext fun j => (h2 j j.isLt).2.1
  have hG : s.log2Ml = Arr.const 57 c := funext fun j => (h2 j j.isLt).2.2.1
  have hP : s.PHIl = Arr.const 57 d := funext fun j => (h2 j j.isLt).2.2.2.1
  have hS : s.PSIl = Arr.const 57 e := funext fun j => (h2 j j.isLt).2.2.2.2
  rw [hM, hV, hG, hP, hS]

/-- The state set by `mbe_initAmbeParms_common`. -/
def ambeInit : Parms F where
  w0 := toF ((mpi /ᵈ dlit 32 1) *ᵈ (dlit 2 1 *ᵈ mpi))
  L := 15
  K := 0
  Vl := Arr.const 57 0
  Ml := Arr.const 57 (lit 1 1)
  log2Ml := Arr.const 57 (lit 0 1)
  PHIl := Arr.const 57 (lit 0 1)
  PSIl := Arr.const 57 (lit 0 1)
  gamma := lit 0 1
  un := 0
  repeat_ := 0
  swn := 0
  localEnergy := defaultLocalEnergy
  amplitudeThreshold := defaultAmplitudeThreshold
  errorRate := lit 0 1
  errorCountTotal := 0
  errorCount4 := 0
  repeatCount := 0
  mutingThreshold := mutingAmbe
  previousUw := Arr.const 256 (fi 0)
  noiseSeed := neg (lit 1 1)
  noiseOverlap := Arr.const 96 (fi 0)

/-- The state set by `mbe_initMbeParms`, for the number of harmonics `L` of its default fundamental. -/
def imbeInit (L : Int) : Parms F where
  w0 := imbeDefaultW0
  L := L
  K := 12
  Vl := Arr.const 57 0
  Ml := Arr.const 57 (lit 1 1)
  log2Ml := Arr.const 57 (fi 0)
  PHIl := Arr.const 57 (fi 0)
  PSIl := Arr.const 57 (lit 0 1)
  gamma := fi 0
  un := 0
  repeat_ := 0
  swn := 0
  localEnergy := defaultLocalEnergy
  amplitudeThreshold := defaultAmplitudeThreshold
  errorRate := lit 0 1
  errorCountTotal := 0
  errorCount4 := 0
  repeatCount := 0
  mutingThreshold := mutingImbe
  previousUw := Arr.const 256 (fi 0)
  noiseSeed := neg (lit 1 1)
  noiseOverlap := Arr.const 96 (fi 0)

theorem initAmbeParms_eq (p : Parms F) : initAmbeParms p = .ok ambeInit := by
  unfold initAmbeParms
  simp only []
  rw [fill5]
  rfl

theorem initMbeParms_eq (p : Parms F) : initMbeParms p = (imbeLOfW0 (imbeDefaultW0 : F) >>= fun L => .ok (imbeInit L)) := by
  unfold initMbeParms
  simp only []
  refine congrArg _ (funext fun L => ?_)
  rw [fill5]
  rfl

theorem initAmbeState_eq (s : St F) : initAmbeState s = .ok ⟨ambeInit, ambeInit, ambeInit, s.tls⟩ := by
  unfold initAmbeState
  rw [initAmbeParms_eq]
  rfl

theorem imbeDefaultW0_ieee {m : Libm} : (imbeDefaultW0 : IEEE m) = (imbeDefaultW0 : IEEE libm0) := rfl

theorem imbeDefaultL0 : imbeLOfW0 (imbeDefaultW0 : IEEE libm0) = .ok 39 := by decide +kernel

theorem imbeDefaultL {m : Libm} : imbeLOfW0 (imbeDefaultW0 : IEEE m) = .ok 39 :=
  (congrArg (imbeLOfW0 (F := IEEE m)) imbeDefaultW0_ieee).trans ((imbeLOfW0_ieee _).trans imbeDefaultL0)

theorem initMbeParms_ieee {m : Libm} (p : Parms (IEEE m)) : initMbeParms p = .ok (imbeInit 39) := by
  rw [initMbeParms_eq, imbeDefaultL]
  rfl

/-- Three arrays filled in one loop. -/
theorem fill3 (p : Parms F) (a c : F) :
    loop 57 (fun l (p : Parms F) => do
      let p := { p with Vl := ← p.Vl.wr l 0 }
      let p := { p with Ml := ← p.Ml.wr l a }
      pure { p with log2Ml := ← p.log2Ml.wr l c }) p =
    .ok { p with Ml := Arr.const 57 a, Vl := Arr.const 57 0, log2Ml := Arr.const 57 c } := by
  obtain ⟨s, hs, h1, h2⟩ := loop_inv (n := 57) (f := fun l (p : Parms F) => do
      let p := { p with Vl := ← p.Vl.wr l 0 }
      let p := { p with Ml := ← p.Ml.wr l a }
      pure { p with log2Ml := ← p.log2Ml.wr l c }) (s := p)
    (fun k s => s = { p with Ml := s.Ml, Vl := s.Vl, log2Ml := s.log2Ml } ∧
      ∀ j : Fin 57, j.val < k → s.Ml j = a ∧ s.Vl j = 0 ∧ s.log2Ml j = c)
    ⟨rfl, by intro j h; omega⟩ (by
      intro i hi s hs
      simp only [Arr.wr_nat hi, ok_bind]
      refine Ok.pure ⟨?_, fun j hj => ?_⟩
      · dsimp only; rw [hs.1]
      · by_cases h : j.val = i
        · simp only [Arr.set_same h, and_self]
        · simp only [Arr.set_ne h]; exact hs.2 j (by omega))
  rw [hs, h1]
  congr 1
  have hM : s.Ml = Arr.const 57 a := funext fun j => (h2 j j.isLt).1
  have hV : s.Vl = Arr.const 57 0 := funext fun j => (h2 j j.isLt).2.1
  have hG : s.log2Ml = Arr.const 57 c := funext fun j => (h2 j j.isLt).2.2
  rw [hM, hV, hG]

/-- The IMBE default model after prolonged repeats. -/
def imbeHeadroom (L : Int) (p : Parms F) : Parms F :=
  { p with swn := 0, un := 0, w0 := imbeDefaultW0, L := L, K := 12, gamma := lit 0 1, Vl := Arr.const 57 0,
           Ml := Arr.const 57 (lit 1 1), log2Ml := Arr.const 57 (lit 0 1), repeat_ := 0, repeatCount := 0,
           localEnergy := lit 75000 1, amplitudeThreshold := 20480, mutingThreshold := mutingImbe }

theorem imbeReset_eq (p : Parms F) : imbeResetHeadroomDefaults p =
    (imbeLOfW0 (imbeDefaultW0 : F) >>= fun L => .ok (imbeHeadroom L p)) := by
  unfold imbeResetHeadroomDefaults
  simp only []
  refine congrArg _ (funext fun L => ?_)
  rw [fill3]
  rfl

theorem imbeReset_ieee {m : Libm} (p : Parms (IEEE m)) : imbeResetHeadroomDefaults p = .ok (imbeHeadroom 39 p) := by
  rw [imbeReset_eq, imbeDefaultL]
  rfl

/-- The erasure model, with the continuity state of `src`. -/
def ambeErasure (mp src : Parms F) : Parms F :=
  { mp with swn := 0, un := 0, w0 := lit 0 1, L := 9, K := 0, gamma := lit 0 1, Vl := Arr.const 57 0,
            Ml := Arr.const 57 (lit 1 1), log2Ml := Arr.const 57 (lit 0 1), PHIl := src.PHIl, PSIl := src.PSIl,
            localEnergy := defaultLocalEnergy, amplitudeThreshold := defaultAmplitudeThreshold,
            noiseSeed := src.noiseSeed, noiseOverlap := src.noiseOverlap, previousUw := src.previousUw }

theorem setAmbeErasureParms_eq (mp src : Parms F) : setAmbeErasureParms mp src = .ok (ambeErasure mp src) := by
  unfold setAmbeErasureParms
  simp only []
  generalize hp : ({ mp with swn := 0, un := 0, w0 := lit 0 1, L := 9, K := 0, gamma := lit 0 1 } : Parms F) = p
  obtain ⟨s, hs, h1, h2⟩ := loop_inv (n := 57) (f := fun l (mp : Parms F) => do
      let mp := { mp with Ml := ← mp.Ml.wr l (lit 1 1) }
      let mp := { mp with Vl := ← mp.Vl.wr l 0 }
      let mp := { mp with log2Ml := ← mp.log2Ml.wr l (lit 0 1) }
      let mp := { mp with PHIl := ← mp.PHIl.wr l (← src.PHIl.rd l) }
      pure { mp with PSIl := ← mp.PSIl.wr l (← src.PSIl.rd l) }) (s := p)
    (fun k s => s = { p with Ml := s.Ml, Vl := s.Vl, log2Ml := s.log2Ml, PHIl := s.PHIl, PSIl := s.PSIl } ∧
      ∀ j : Fin 57, j.val < k → s.Ml j = lit 1 1 ∧ s.Vl j = 0 ∧ s.log2Ml j = lit 0 1 ∧ s.PHIl j = src.PHIl j ∧
        s.PSIl j = src.PSIl j)
    ⟨rfl, by intro j h; omega⟩ (by
      intro i hi s hs
      simp only [Arr.wr_nat hi, Arr.rd_nat hi, ok_bind]
      refine Ok.pure ⟨?_, fun j hj => ?_⟩
      · dsimp only; rw [hs.1]
      · by_cases h : j.val = i
        · simp only [Arr.set_same h]
          have : j = ⟨i, hi⟩ := Fin.ext h
          rw [this]; simp
        · simp only [Arr.set_ne h]; exact hs.2 j (by omega))
  rw [hs, ok_bind, h1, ← hp]
  have hM : s.Ml = Arr.const 57 (lit 1 1) := funext fun j => (h2 j j.isLt).1
  have hV : s.Vl = Arr.const 57 0 := funext fun j => (h2 j j.isLt).2.1
  have hG : s.log2Ml = Arr.const 57 (lit 0 1) := funext fun j => (h2 j j.isLt).2.2.1
  have hP : s.PHIl = src.PHIl := funext fun j => (h2 j j.isLt).2.2.2.1
  have hS : s.PSIl = src.PSIl := funext fun j => (h2 j j.isLt).2.2.2.2
  rw [hM, hV, hG, hP, hS]
  rfl

end Verif.Model
