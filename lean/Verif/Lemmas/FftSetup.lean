import Verif.Lemmas.FftRun

/-!
# The setup and the whole transform
-/

set_option linter.unusedSectionVars false

namespace Verif.Model
open Verif Arith

variable {F : Type} [Arith F]

/-- The factors of 256. -/
def ifac256 : Loc 25 Int := stores (Loc.fresh 25 Int) [(2, 4), (3, 4), (4, 4), (5, 4), (0, 256), (1, 4)]

theorem decompose_256 : decompose 256 (Loc.fresh 25 Int) = .ok (4, ifac256) := by rfl

/-- The stores of one row of twiddle factors. -/
def rowW (ido : Nat) (is : Int) (argld : F) : List (Int × F) :=
  (List.range ((ido - 1) / 2)).flatMap fun u : Nat =>
    [(is + 2 * (u : Int), toF (cos (ofInt ((u : Int) + 1) *ᶠ argld))),
     (is + 2 * (u : Int) + 1, toF (sin (ofInt ((u : Int) + 1) *ᶠ argld)))]

theorem twiddleRow_eq (ido : Nat) (is : Int) (argld : F) (wa : Loc 256 F) (h0 : 0 ≤ is) (h : is + ido ≤ 256) (h1 : 1 ≤ ido) :
    twiddleRow ido is argld wa = .ok (stores wa (rowW ido is argld)) := by
  unfold twiddleRow
  have hn : (((ido : Int) - 1) / 2).toNat = (ido - 1) / 2 := by omega
  rw [hn, rowW]
  refine loop_stores (fun u : Nat => [(is + 2 * (u : Int), toF (cos (ofInt ((u : Int) + 1) *ᶠ argld))),
     (is + 2 * (u : Int) + 1, toF (sin (ofInt ((u : Int) + 1) *ᶠ argld)))]) ?_ wa
  intro t ht s
  dsimp only
  have e1 : is + 2 * ((t : Int) + 1) - 2 = is + 2 * (t : Int) := by omega
  have e2 : is + 2 * ((t : Int) + 1) - 1 = is + 2 * (t : Int) + 1 := by omega
  rw [e1, e2, wr_stores (by omega) (by omega), ok_bind, wr_stores (by omega) (by omega), stores_stores]
  rfl

/-- `argh` -/
def argh256 : F := toF ((dofInt 2 *ᵈ mpi) /ᵈ dofInt 256)

/-- `l1`, `ido` and the first subscript of the three groups of rows. -/
def twGroups : List (Int × Nat × Int) := [(1, 64, 0), (4, 16, 192), (16, 4, 240)]

/-- The stores of the three rows of a group. -/
def groupW (l1 : Int) (ido : Nat) (base : Int) : List (Int × F) :=
  rowW ido base (ofInt l1 *ᶠ argh256) ++ rowW ido (base + ido) (ofInt (2 * l1) *ᶠ argh256) ++
    rowW ido (base + 2 * ido) (ofInt (3 * l1) *ᶠ argh256)

/-- All stores of `rffti1_ps` to the twiddle factors. -/
def twW : List (Int × F) := groupW 1 64 0 ++ groupW 4 16 192 ++ groupW 16 4 240

theorem rd_ifac {i : Int} (h : i = 2 ∨ i = 3 ∨ i = 4 ∨ i = 5) : ifac256.rd i = .ok 4 := by
  rcases h with rfl | rfl | rfl | rfl <;> rfl

theorem rd_ifac1 : ifac256.rd 1 = .ok 4 := rfl

theorem group_eq (wa : Loc 256 F) (l1 : Int) (ido : Nat) (base : Int) (h0 : 0 ≤ base) (h : base + 3 * ido ≤ 256) (h1 : 1 ≤ ido) :
    loop 3 (fun _ (s : TwSt F) => do
      let ld := s.ld + s.l1
      let argld : F := ofInt ld *ᶠ argh256
      let wa ← twiddleRow ido s.is argld s.wa
      .ok { s with wa := wa, ld := ld, is := s.is + ido }) { wa := wa, is := base, ld := 0, l1 := l1 } =
    .ok { wa := stores wa (groupW l1 ido base), is := base + 3 * ido, ld := 3 * l1, l1 := l1 } := by
  rw [loop_succ, loop_succ, loop_succ, loop_zero, ok_bind]
  dsimp only
  rw [twiddleRow_eq _ _ _ _ (by omega) (by omega) h1, ok_bind, ok_bind]
  dsimp only
  rw [twiddleRow_eq _ _ _ _ (by omega) (by omega) h1, ok_bind, ok_bind]
  dsimp only
  rw [twiddleRow_eq _ _ _ _ (by omega) (by omega) h1, ok_bind, stores_stores, stores_stores]
  have e1 : (0 : Int) + l1 = l1 := by omega
  have e2 : l1 + l1 = 2 * l1 := by omega
  have e3 : 2 * l1 + l1 = 3 * l1 := by omega
  have e4 : base + (ido : Int) + (ido : Int) = base + 2 * ido := by omega
  have e5 : base + 2 * (ido : Int) + (ido : Int) = base + 3 * ido := by omega
  rw [e1, e2, e3, e4, e5, groupW, List.append_assoc]

theorem rffti1_eq : rffti1 256 (Loc.fresh 256 F) (Loc.fresh 25 Int) = .ok (stores (Loc.fresh 256 F) twW, ifac256) := by
  unfold rffti1
  rw [decompose_256, ok_bind]
  dsimp only
  have h3 : ((4 : Int) - 1).toNat = 3 := rfl
  rw [h3, loop_succ, loop_succ, loop_succ, loop_zero, ok_bind]
  rw [rd_ifac (by omega), ok_bind]
  dsimp only
  have g1 := group_eq (F := F) (Loc.fresh 256 F) 1 64 0 (by omega) (by omega) (by omega)
  have g2 := group_eq (F := F) (stores (Loc.fresh 256 F) (groupW 1 64 0)) 4 16 192 (by omega) (by omega) (by omega)
  have g3 := group_eq (F := F) (stores (stores (Loc.fresh 256 F) (groupW 1 64 0)) (groupW 4 16 192)) 16 4 240 (by omega) (by omega) (by omega)
  have e1 : Int.tdiv 256 (1 * 4) = ((64 : Nat) : Int) := rfl
  have e2 : Int.tdiv 256 (4 * 4) = ((16 : Nat) : Int) := rfl
  have e3 : Int.tdiv 256 (16 * 4) = ((4 : Nat) : Int) := rfl
  rw [h3, e1]
  unfold argh256 at g1 g2 g3
  dsimp only at g1 g2 g3
  rw [g1, ok_bind, ok_bind, rd_ifac (by omega), ok_bind]
  dsimp only
  have f1 : (1 : Int) * 4 = 4 := rfl
  have f2 : (0 : Int) + 3 * ((64 : Nat) : Int) = 192 := rfl
  have f3 : (4 : Int) * 4 = 16 := rfl
  have f4 : (192 : Int) + 3 * ((16 : Nat) : Int) = 240 := rfl
  rw [h3, f1, e2, f2, g2, ok_bind, ok_bind, rd_ifac (by omega), ok_bind]
  dsimp only
  rw [h3, f3, e3, f4, g3, ok_bind, ok_bind, stores_stores, stores_stores]
  rfl

/-- The setup that `pffft_new_setup(256, PFFFT_REAL)` returns. -/
def setup256 : Setup F := { N := 256, Ncvec := 128, ifac := ifac256, twiddle := stores (Loc.fresh 256 F) twW }

theorem newSetup256_eq : (newSetup256 : Exec (Option (Setup F))) = .ok (some setup256) := by
  unfold newSetup256
  have h : assertC ((256 : Int) % 2 = 0) = .ok () := rfl
  rw [h, ok_bind, rffti1_eq, ok_bind]
  dsimp only
  rw [rd_ifac1, ok_bind]
  have h4 : (4 : Int).toNat = 4 := rfl
  rw [h4, loop_succ, loop_succ, loop_succ, loop_succ, loop_zero, ok_bind, rd_ifac (by omega), ok_bind, ok_bind,
    rd_ifac (by omega), ok_bind, ok_bind, rd_ifac (by omega), ok_bind, ok_bind, rd_ifac (by omega), ok_bind, ok_bind]
  rw [if_neg (by decide)]
  rfl

/-! ## Which twiddle factors are set -/

def rowA (ido : Nat) (is : Int) : List Int :=
  (List.range ((ido - 1) / 2)).flatMap fun u : Nat => [is + 2 * (u : Int), is + 2 * (u : Int) + 1]

theorem rowW_addr (ido : Nat) (is : Int) (argld : F) : (rowW ido is argld).map Prod.fst = rowA ido is := by
  simp only [rowW, rowA, List.map_flatMap, List.map_cons, List.map_nil]

def twA : List Int :=
  (rowA 64 0 ++ rowA 64 (0 + 64) ++ rowA 64 (0 + 2 * 64)) ++ (rowA 16 192 ++ rowA 16 (192 + 16) ++ rowA 16 (192 + 2 * 16)) ++
    (rowA 4 240 ++ rowA 4 (240 + 4) ++ rowA 4 (240 + 2 * 4))

theorem twW_addr : (twW : List (Int × F)).map Prod.fst = twA := by
  simp only [twW, groupW, List.map_append, rowW_addr]
  rfl

/-- The subscripts of the twiddle factors that are used by some pass. -/
def twMask : Nat := (List.range 256).foldl (fun m j =>
  if j % 64 < 62 ∧ j < 192 ∨ 192 ≤ j ∧ j < 240 ∧ j % 16 < 14 ∨ 240 ≤ j ∧ j < 252 ∧ j % 4 < 2 then m ||| 2 ^ j else m) 0

theorem twA_bits : bitSet twA 0 = some twMask := by decide +kernel

theorem twMask_bits : ∀ j < 256, (j % 64 < 62 ∧ j < 192 ∨ 192 ≤ j ∧ j < 240 ∧ j % 16 < 14 ∨ 240 ≤ j ∧ j < 252 ∧ j % 4 < 2) →
    twMask.testBit j = true := by decide +kernel

/-- The twiddle factors as a function. -/
def tw256 : Int → F := valAt (fi 0) twW

theorem tw256_mem {a : Int} {v : F} (h : (a, v) ∈ (twW : List (Int × F))) : tw256 a = v :=
  valAt_mem _ (by rw [twW_addr]; exact (bitSet_spec twA_bits).1) h

theorem rd_tw {j : Nat} (hj : j < 256)
    (h : j % 64 < 62 ∧ j < 192 ∨ 192 ≤ j ∧ j < 240 ∧ j % 16 < 14 ∨ 240 ≤ j ∧ j < 252 ∧ j % 4 < 2) :
    Loc.rd (stores (Loc.fresh 256 F) twW) (j : Int) = .ok (tw256 (j : Int)) := by
  have hs := bitSet_spec twA_bits
  have hm : (j : Int) ∈ (twW : List (Int × F)).map Prod.fst := by
    rw [twW_addr]
    rcases hs.2.2 j (twMask_bits j hj h) with h | h
    · rw [Nat.zero_testBit] at h; cases h
    · exact h
  obtain ⟨p, hp, he⟩ := List.mem_map.1 hm
  have hp : ((j : Int), p.2) ∈ (twW : List (Int × F)) := by rw [← he]; exact hp
  rw [tw256_mem hp]
  exact Loc.rd_nat hj (stores_mem _ (by rw [twW_addr]; exact hs.1) (by rw [twW_addr]; exact fun a ha => (hs.2.1 a ha).1) hp ⟨j, hj⟩ rfl)

theorem tw_rows {ido w1 : Int}
    (h : (ido = 64 ∧ w1 = 0) ∨ (ido = 16 ∧ w1 = 192) ∨ (ido = 4 ∧ w1 = 240) ∨ (ido = 1 ∧ w1 = 252)) :
    TwRows (setup256 : Setup F).twiddle tw256 ido w1 (w1 + ido) (w1 + ido + ido) := by
  intro a ha
  obtain ⟨j, rfl⟩ : ∃ j : Nat, a = (j : Int) := ⟨a.toNat, by omega⟩
  exact rd_tw (by omega) (by omega)

end Verif.Model
