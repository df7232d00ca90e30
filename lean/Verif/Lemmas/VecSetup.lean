import Verif.Lemmas.FftSetup
import Verif.Lemmas.VecRun
import Verif.Model.FftVec

/-!
# The setup of the vector build
-/

set_option linter.unusedSectionVars false

namespace Verif.Model.Vec
open Verif Verif.Model Arith

variable {F : Type} [Arith F]

/-- The factors of 64. -/
def ifac64 : Loc 25 Int := stores (Loc.fresh 25 Int) [(2, 4), (3, 4), (4, 4), (0, 64), (1, 3)]

theorem decompose_64 : decompose 64 (Loc.fresh 25 Int) = .ok (3, ifac64) := by rfl

theorem twiddleRow_eq (ido : Nat) (is : Int) (argld : F) (wa : Loc 64 F) (h0 : 0 ≤ is) (h : is + ido ≤ 64) (h1 : 1 ≤ ido) :
    twiddleRow ido is argld wa = .ok (stores wa (rowW ido is argld)) := by
  unfold twiddleRow
  have hn : (((ido : Int) - 1) / 2).toNat = (ido - 1) / 2 := by omega
  rw [hn, rowW]
  refine loop_stores (fun u : Nat => [(is + 2 * (u : Int), toF (cos (ofInt ((u : Int) + 1) *ᶠ argld))),
     (is + 2 * (u : Int) + 1, toF (sin (ofInt ((u : Int) + 1) *ᶠ argld)))]) ?_ wa
  intro t ht s
  dsimp only
  have e1 : is + 2 * ((t : Int) + 1) - 2 = is + 2 * (t : Int) := by omega
  have e2 : is + 2 * ((t : Int) + 1) - 1 = is + 2 * (t : Int) + 1 := by omega
  rw [e1, e2, wr_stores (by omega) (by omega), ok_bind, wr_stores (by omega) (by omega), stores_stores]
  rfl

/-- `argh` -/
def argh64 : F := toF ((dofInt 2 *ᵈ mpi) /ᵈ dofInt 64)

/-- The stores of the three rows of a group. -/
def groupW (l1 : Int) (ido : Nat) (base : Int) : List (Int × F) :=
  rowW ido base (ofInt l1 *ᶠ argh64) ++ rowW ido (base + ido) (ofInt (2 * l1) *ᶠ argh64) ++
    rowW ido (base + 2 * ido) (ofInt (3 * l1) *ᶠ argh64)

/-- All stores of `rffti1_ps` to the twiddle factors. -/
def twW : List (Int × F) := groupW 1 16 0 ++ groupW 4 4 48

theorem rd_ifac {i : Int} (h : i = 2 ∨ i = 3 ∨ i = 4) : ifac64.rd i = .ok 4 := by
  rcases h with rfl | rfl | rfl <;> rfl

theorem rd_ifac1 : ifac64.rd 1 = .ok 3 := rfl

theorem group_eq (wa : Loc 64 F) (l1 : Int) (ido : Nat) (base : Int) (h0 : 0 ≤ base) (h : base + 3 * ido ≤ 64) (h1 : 1 ≤ ido) :
    loop 3 (fun _ (s : TwSt F 64) => do
      let ld := s.ld + s.l1
      let argld : F := ofInt ld *ᶠ argh64
      let wa ← twiddleRow ido s.is argld s.wa
      .ok { s with wa := wa, ld := ld, is := s.is + ido }) { wa := wa, is := base, ld := 0, l1 := l1 } =
    .ok { wa := stores wa (groupW l1 ido base), is := base + 3 * ido, ld := 3 * l1, l1 := l1 } := by
  rw [loop_succ, loop_succ, loop_succ, loop_zero, ok_bind]
  dsimp only
  rw [twiddleRow_eq _ _ _ _ (by omega) (by omega) h1, ok_bind, ok_bind]
  dsimp only
  rw [twiddleRow_eq _ _ _ _ (by omega) (by omega) h1, ok_bind, ok_bind]
  dsimp only
  rw [twiddleRow_eq _ _ _ _ (by omega) (by omega) h1, ok_bind, stores_stores, stores_stores]
  have e1 : (0 : Int) + l1 = l1 := by omega
  have e2 : l1 + l1 = 2 * l1 := by omega
  have e3 : 2 * l1 + l1 = 3 * l1 := by omega
  have e4 : base + (ido : Int) + (ido : Int) = base + 2 * ido := by omega
  have e5 : base + 2 * (ido : Int) + (ido : Int) = base + 3 * ido := by omega
  rw [e1, e2, e3, e4, e5, groupW, List.append_assoc]

theorem rffti1_eq : rffti1 64 (Loc.fresh 64 F) (Loc.fresh 25 Int) = .ok (stores (Loc.fresh 64 F) twW, ifac64) := by
  unfold rffti1
  rw [decompose_64, ok_bind]
  dsimp only
  have h2 : ((3 : Int) - 1).toNat = 2 := rfl
  have h3 : ((4 : Int) - 1).toNat = 3 := rfl
  rw [h2, loop_succ, loop_succ, loop_zero, ok_bind]
  rw [rd_ifac (by omega), ok_bind]
  dsimp only
  have g1 := group_eq (F := F) (Loc.fresh 64 F) 1 16 0 (by omega) (by omega) (by omega)
  have g2 := group_eq (F := F) (stores (Loc.fresh 64 F) (groupW 1 16 0)) 4 4 48 (by omega) (by omega) (by omega)
  have e1 : Int.tdiv 64 (1 * 4) = ((16 : Nat) : Int) := rfl
  have e2 : Int.tdiv 64 (4 * 4) = ((4 : Nat) : Int) := rfl
  rw [h3, e1]
  unfold argh64 at g1 g2
  dsimp only at g1 g2
  rw [g1, ok_bind, ok_bind, rd_ifac (by omega), ok_bind]
  dsimp only
  have f1 : (1 : Int) * 4 = 4 := rfl
  have f2 : (0 : Int) + 3 * ((16 : Nat) : Int) = 48 := rfl
  rw [h3, f1, e2, f2, g2, ok_bind, ok_bind, stores_stores]
  rfl

/-! ## The table `e` -/

/-- The angle of an entry. -/
def eAng (k m : Int) : F := toF ((((dofInt (-2) *ᵈ mpi) *ᵈ dofInt (m + 1)) *ᵈ dofInt k) /ᵈ dofInt 256)

/-- The stores of one entry. -/
def eW1 (k m : Nat) : List (Int × F) :=
  [((8 * ((k / 4) * 3 + m) + k % 4 : Nat), toF (cos (eAng k m))), ((8 * ((k / 4) * 3 + m) + 4 + k % 4 : Nat), toF (sin (eAng k m)))]

/-- All stores to the table. -/
def eW : List (Int × F) := (List.range 32).flatMap fun k => (List.range 3).flatMap fun m => eW1 k m

def eA : List Int := (List.range 32).flatMap fun k => (List.range 3).flatMap fun m =>
  [((8 * ((k / 4) * 3 + m) + k % 4 : Nat) : Int), ((8 * ((k / 4) * 3 + m) + 4 + k % 4 : Nat) : Int)]

theorem eW_addr : (eW : List (Int × F)).map Prod.fst = eA := by
  simp only [eW, eA, eW1, List.map_flatMap, List.map_cons, List.map_nil]

theorem eA_bits : Model.bitSet eA 0 = some (2 ^ 192 - 1) := by decide +kernel

theorem eA_ok : eA.Nodup ∧ (∀ a ∈ eA, 0 ≤ a ∧ a < 192) ∧ ∀ j : Nat, j < 192 → (j : Int) ∈ eA := by
  obtain ⟨h1, h2, h3⟩ := Model.bitSet_spec eA_bits
  refine ⟨h1, by decide +kernel, fun j hj => ?_⟩
  rcases h3 j (by rw [Nat.testBit_two_pow_sub_one]; exact decide_eq_true hj) with h | h
  · rw [Nat.zero_testBit] at h; cases h
  · exact h

theorem eEntry_eq {k m : Nat} (hk : k < 32) (hm : m < 3) (e : Loc 192 F) : eEntry (k : Int) (m : Int) e = .ok (stores e (eW1 k m)) := by
  unfold eEntry
  dsimp only
  have e1 : (2 * (Int.tdiv (k : Int) 4 * 3 + (m : Int)) + 0) * 4 + Int.tmod (k : Int) 4 = ((8 * ((k / 4) * 3 + m) + k % 4 : Nat) : Int) := by
    have : Int.tdiv (k : Int) 4 = ((k / 4 : Nat) : Int) := rfl
    have : Int.tmod (k : Int) 4 = ((k % 4 : Nat) : Int) := rfl
    omega
  have e2 : (2 * (Int.tdiv (k : Int) 4 * 3 + (m : Int)) + 1) * 4 + Int.tmod (k : Int) 4 = ((8 * ((k / 4) * 3 + m) + 4 + k % 4 : Nat) : Int) := by
    have : Int.tdiv (k : Int) 4 = ((k / 4 : Nat) : Int) := rfl
    have : Int.tmod (k : Int) 4 = ((k % 4 : Nat) : Int) := rfl
    omega
  rw [e1, e2, wr_stores (by omega) (by omega), ok_bind, wr_stores (by omega) (by omega), stores_stores]
  rfl

/-- The table as a function. -/
def eTab : Int → F := valAt (fi 0) eW

theorem eLoop_eq : loop 32 (fun k e => loop 3 (fun m e => eEntry (k : Int) (m : Int) e) e) (Loc.fresh 192 F) = .ok (full 192 eTab) := by
  rw [loop_stores (fun k => (List.range 3).flatMap fun m => eW1 k m) (by
    intro k hk s
    refine loop_stores _ ?_ s
    intro m hm s
    exact eEntry_eq hk hm s)]
  congr 1
  obtain ⟨h1, h2, h3⟩ := eA_ok
  exact stores_full (fi 0) _ (by rw [show ((List.range 32).flatMap fun k => (List.range 3).flatMap fun m => eW1 k m) = (eW : List (Int × F)) from rfl, eW_addr]; exact h1)
    (by rw [show ((List.range 32).flatMap fun k => (List.range 3).flatMap fun m => eW1 k m) = (eW : List (Int × F)) from rfl, eW_addr]; exact fun a ha => (h2 a ha).1)
    (by rw [show ((List.range 32).flatMap fun k => (List.range 3).flatMap fun m => eW1 k m) = (eW : List (Int × F)) from rfl, eW_addr]; exact h3)

theorem eTab_mem {k m : Nat} (hk : k < 32) (hm : m < 3) :
    (eTab ((8 * ((k / 4) * 3 + m) + k % 4 : Nat) : Int) : F) = toF (cos (eAng k m)) ∧
    (eTab ((8 * ((k / 4) * 3 + m) + 4 + k % 4 : Nat) : Int) : F) = toF (sin (eAng k m)) := by
  have h : ∀ p ∈ (eW1 k m : List (Int × F)), p ∈ (eW : List (Int × F)) := fun p hp =>
    List.mem_flatMap.2 ⟨k, List.mem_range.2 hk, List.mem_flatMap.2 ⟨m, List.mem_range.2 hm, hp⟩⟩
  exact ⟨valAt_mem _ (by rw [eW_addr]; exact eA_ok.1) (h _ (List.mem_cons_self ..)),
    valAt_mem _ (by rw [eW_addr]; exact eA_ok.1) (h _ (List.mem_cons_of_mem _ (List.mem_cons_self ..)))⟩

/-! ## The setup -/

/-- The setup that `pffft_new_setup(256, PFFFT_REAL)` returns. -/
def setupV : SetupV F := { N := 256, Ncvec := 32, ifac := ifac64, e := full 192 eTab, twiddle := stores (Loc.fresh 64 F) twW }

theorem newSetupV_eq : (newSetupV : Exec (Option (SetupV F))) = .ok (some setupV) := by
  unfold newSetupV
  have h : assertC ((256 : Int) % (2 * 4 * 4) = 0) = .ok () := rfl
  rw [h, ok_bind, eLoop_eq, ok_bind, rffti1_eq, ok_bind]
  dsimp only
  rw [rd_ifac1, ok_bind]
  have h3 : (3 : Int).toNat = 3 := rfl
  rw [h3, loop_succ, loop_succ, loop_succ, loop_zero, ok_bind, rd_ifac (by omega), ok_bind, ok_bind,
    rd_ifac (by omega), ok_bind, ok_bind, rd_ifac (by omega), ok_bind, ok_bind]
  rw [if_neg (by decide)]
  rfl

/-! ## Which twiddle factors are set -/

def twA : List Int :=
  (rowA 16 0 ++ rowA 16 (0 + 16) ++ rowA 16 (0 + 2 * 16)) ++ (rowA 4 48 ++ rowA 4 (48 + 4) ++ rowA 4 (48 + 2 * 4))

theorem twW_addr : (twW : List (Int × F)).map Prod.fst = twA := by
  simp only [twW, groupW, List.map_append, rowW_addr]
  rfl

/-- The subscripts of the twiddle factors that are used by some pass. -/
def twMask : Nat := (List.range 64).foldl (fun m j =>
  if j < 48 ∧ j % 16 < 14 ∨ 48 ≤ j ∧ j < 60 ∧ j % 4 < 2 then m ||| 2 ^ j else m) 0

theorem twA_bits : bitSet twA 0 = some twMask := by decide +kernel

theorem twMask_bits : ∀ j < 64, (j < 48 ∧ j % 16 < 14 ∨ 48 ≤ j ∧ j < 60 ∧ j % 4 < 2) → twMask.testBit j = true := by decide +kernel

/-- The twiddle factors as a function. -/
def tw64 : Int → F := valAt (fi 0) twW

theorem tw64_mem {a : Int} {v : F} (h : (a, v) ∈ (twW : List (Int × F))) : tw64 a = v :=
  valAt_mem _ (by rw [twW_addr]; exact (bitSet_spec twA_bits).1) h

theorem rd_tw {j : Nat} (hj : j < 64) (h : j < 48 ∧ j % 16 < 14 ∨ 48 ≤ j ∧ j < 60 ∧ j % 4 < 2) :
    (stores (Loc.fresh 64 F) twW) ⟨j, hj⟩ = some (tw64 (j : Int)) := by
  have hs := bitSet_spec twA_bits
  have hm : (j : Int) ∈ (twW : List (Int × F)).map Prod.fst := by
    rw [twW_addr]
    rcases hs.2.2 j (twMask_bits j hj h) with h | h
    · rw [Nat.zero_testBit] at h; cases h
    · exact h
  obtain ⟨p, hp, he⟩ := List.mem_map.1 hm
  have hp : ((j : Int), p.2) ∈ (twW : List (Int × F)) := by rw [← he]; exact hp
  rw [tw64_mem hp]
  exact stores_mem _ (by rw [twW_addr]; exact hs.1) (by rw [twW_addr]; exact fun a ha => (hs.2.1 a ha).1) hp ⟨j, hj⟩ rfl

/-- The twiddle factors as the passes on vectors read them. -/
def twV : Int → Vec4 F := fun a _ => tw64 a

theorem tw_rows {ido w1 : Int} (h : (ido = 16 ∧ w1 = 0) ∨ (ido = 4 ∧ w1 = 48) ∨ (ido = 1 ∧ w1 = 60)) :
    TwRows (bcast (setupV : SetupV F).twiddle) twV ido w1 (w1 + ido) (w1 + ido + ido) := by
  intro a ha
  obtain ⟨j, rfl⟩ : ∃ j : Nat, a = (j : Int) := ⟨a.toNat, by omega⟩
  have hj : j < 64 := by omega
  refine Loc.rd_nat hj ?_
  show ((stores (Loc.fresh 64 F) twW) ⟨j, hj⟩).map _ = _
  rw [rd_tw hj (by omega)]
  rfl

/-! ## Vectors in memory -/

/-- The vector at subscript `a` of a block of floats. -/
def packV (c : Int → F) (a : Int) : Vec4 F := v4 (c (4 * a)) (c (4 * a + 1)) (c (4 * a + 2)) (c (4 * a + 3))

theorem asVec_full {n : Nat} (c : Int → F) : asVec (n := n) (full (4 * n) c) = full n (packV c) := by
  funext i
  show some _ = some _
  congr 1

theorem asFloats_full {n : Nat} (c : Int → Vec4 F) :
    asFloats (full n c) = full (4 * n) fun a => c (a / 4) ⟨(a % 4).toNat, by omega⟩ := by
  funext i
  show some _ = some _
  congr 1

end Verif.Model.Vec
