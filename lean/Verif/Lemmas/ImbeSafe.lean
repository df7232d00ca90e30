import Verif.Lemmas.ImbeBits
import Verif.Lemmas.Decode

/-!
# The IMBE parameter decoder ends without undefined behaviour
-/

namespace Verif.Model
open Verif Verif.Spec Verif.Gen Verif.Num Arith
set_option linter.unusedSectionVars false

variable {F : Type} [Arith F]

/-- Voicing bit of band `k` (0-based, counted from the lowest frequencies). -/
noncomputable def bandBit (n : Nat) (d : Nat → Int) (K k : Nat) : Int := d (src n 1 (K - 1 - k))

theorem imbeVoicing_ok {n : Nat} {d : Nat → Int} {bb : Arr 58 (Loc 12 Int)} (hb : BB n d bb) (hn : n < 48)
    (hd : Bits 88 d) (Vl : Arr 57 Int) :
    Ok (imbeVoicing bb ((n + 9 : Nat) : Int) ((imbeBands (n + 9) : Nat) : Int) Vl) fun V =>
      ∀ i : Fin 57, V i = if 1 ≤ i.val ∧ i.val ≤ n + 9 then
        bandBit n d (imbeBands (n + 9)) (min ((i.val - 1) / 3) (imbeBands (n + 9) - 1)) else Vl i := by
  set K := imbeBands (n + 9) with hK
  have hK1 : 1 ≤ K := by rw [hK]; unfold imbeBands; omega
  unfold imbeVoicing
  rw [Int.toNat_natCast]
  refine Ok.bind (loopFT_inv (lo := 1) (hi := n + 9) (fun i (s : Arr 57 Int × Int × Int) =>
    (∀ l : Fin 57, s.1 l = if 1 ≤ l.val ∧ l.val < i then bandBit n d K (min ((l.val - 1) / 3) (K - 1)) else Vl l) ∧
    s.2.1 = ((i - 1) % 3 + 1 : Nat) ∧ s.2.2 = (K - 1 - min ((i - 1) / 3) (K - 1) : Nat)) (by omega) ?_ ?_) ?_
  · refine ⟨fun l => ?_, rfl, ?_⟩
    · rw [if_neg (by omega)]
    · show (K : Int) - 1 = _
      simp
      omega
  · rintro i h1 h2 ⟨V, j, k⟩ ⟨i1, i2, i3⟩
    dsimp only at i1 i2 i3 ⊢
    subst i2 i3
    set q := min ((i - 1) / 3) (K - 1) with hq
    obtain ⟨hc, hv, hs⟩ := hb.get (r := 1) (c := K - 1 - q) hn (by decide) (by
      show K - 1 - q < imbeBands (n + 9)
      omega)
    have hv' : Loc.rd2 bb 1 ((K - 1 - q : Nat) : Int) = .ok (d (src n 1 (K - 1 - q))) :=
      Loc.rd2_nat (i := 1) (by decide) hc hv
    rw [hv', ok_bind, Arr.wr_nat (by omega), ok_bind]
    have hval : (d (src n 1 (K - 1 - q))) % 256 = bandBit n d K q := by
      unfold bandBit
      rcases hd _ hs with e | e <;> rw [e] <;> rfl
    have hset : ∀ l : Fin 57, (V.set i ((d (src n 1 (K - 1 - q))) % 256)) l =
        if 1 ≤ l.val ∧ l.val < i + 1 then bandBit n d K (min ((l.val - 1) / 3) (K - 1)) else Vl l := by
      intro l
      by_cases e : l.val = i
      · rw [Arr.set_same e, hval, if_pos ⟨by omega, by omega⟩, e]
      · rw [Arr.set_ne e, i1 l]
        by_cases c : 1 ≤ l.val ∧ l.val < i
        · rw [if_pos c, if_pos ⟨c.1, by omega⟩]
        · rw [if_neg c, if_neg (by omega)]
    refine Ok.ite (fun h => Ok.ok ⟨hset, ?_, ?_⟩) (fun h => Ok.ok ⟨hset, ?_, ?_⟩)
    · show (1 : Int) = _
      omega
    · show (if ((K - 1 - q : Nat) : Int) > 0 then ((K - 1 - q : Nat) : Int) - 1 else 0) = _
      clear_value q
      split <;> omega
    · show (_ : Int) + 1 = _
      omega
    · show ((_ : Nat) : Int) = ((_ : Nat) : Int)
      congr 1
      omega
  · rintro ⟨V, j, k⟩ ⟨i1, _, _⟩
    refine Ok.ok fun l => ?_
    rw [i1 l]
    by_cases c : 1 ≤ l.val ∧ l.val ≤ n + 9
    · rw [if_pos c, if_pos ⟨c.1, by omega⟩]
    · rw [if_neg c, if_neg (by omega)]

/-- Value of a quantiser row. -/
noncomputable def rowVal (n r w : Nat) (d : Nat → Int) : Nat := fieldVal d ((List.range w).reverse.map (src n r))

theorem bbField_ok {n r w : Nat} {d : Nat → Int} {bb : Arr 58 (Loc 12 Int)} (hb : BB n d bb) (hn : n < 48)
    (hd : Bits 88 d) (hr : r < 58) (hw : w = rowBits (n + 9) r) :
    bbField bb (r : Int) (w : Int) = .ok (rowVal n r w d) ∧ rowVal n r w d < 2 ^ w := by
  have hle := rowBits_le n hn r hr
  have hget : ∀ c, c < w → Loc.rd2 bb (r : Int) (c : Int) = .ok (d (src n r c)) ∧ src n r c < 88 := by
    intro c hc
    obtain ⟨hc', hv, hs⟩ := hb.get (r := r) (c := c) hn hr (by omega)
    exact ⟨Loc.rd2_nat hr hc' hv, hs⟩
  have key : ∀ w', w' ≤ w → ∀ cs : List Int,
      loopDown w' (fun j cs => do .ok (cs ++ [(← Loc.rd2 bb (r : Int) (j : Int)) + 48])) cs =
        (.ok (cs ++ ((List.range w').reverse.map (src n r)).map fun i => d i + 48) : Exec (List Int)) := by
    intro w'
    induction w' with
    | zero => intro _ cs; simp [loopDown]
    | succ w' ih =>
      intro h cs
      rw [loopDown, (hget w' (by omega)).1, ok_bind, ok_bind, ih (by omega)]
      simp [List.range_succ]
  have hbits : ∀ i ∈ (List.range w).reverse.map (src n r), d i = 0 ∨ d i = 1 := by
    intro i hi
    obtain ⟨c, hc, rfl⟩ := List.mem_map.mp hi
    exact hd _ (hget c (by simpa using hc)).2
  constructor
  · unfold bbField
    rw [if_pos (by omega), Int.toNat_natCast, key w (le_refl w)]
    simp only [ok_bind, List.nil_append]
    rw [strtol2_map hbits rfl]
    rfl
  · have := fieldVal_lt hbits
    simpa [rowVal] using this

/-- Subscripts `1 .. N` are initialised. -/
def Init {r : Nat} {α : Type} (N : Nat) (a : Loc r α) : Prop := ∀ i (h : i < r), 1 ≤ i → i ≤ N → ∃ v, a ⟨i, h⟩ = some v

theorem Init.rd {r N : Nat} {α : Type} {a : Loc r α} (h : Init N a) {i : Nat} (h1 : 1 ≤ i) (h2 : i ≤ N) (h3 : N < r) :
    ∃ v, a.rd (i : Int) = .ok v := by
  obtain ⟨v, hv⟩ := h i (by omega) h1 h2
  exact ⟨v, Loc.rd_nat (by omega) hv⟩

theorem Init.set {r N i : Nat} {α : Type} {a : Loc r α} {v : α}
    (h : ∀ j (hj : j < r), 1 ≤ j → j ≤ N → j ≠ i → ∃ v, a ⟨j, hj⟩ = some v) : Init N (Arr.set a i (some v)) := by
  intro j hj h1 h2
  by_cases e : j = i
  · exact ⟨v, Arr.set_same e⟩
  · obtain ⟨w, hw⟩ := h j hj h1 h2 e
    exact ⟨w, by rw [Arr.set_ne e, hw]⟩

theorem idctRi_ok {r n : Nat} (cache : DctCache F r n) {N : Nat} {Gm : Loc r F} (hG : Init N Gm) (hN : N < r) :
    Ok (idctRi cache N Gm) (Init N) := by
  unfold idctRi
  refine (loopFT_inv (lo := 1) (hi := N) (fun i (Ri : Loc r F) => Init (i - 1) Ri) (by omega) ?_ ?_).mono ?_
  · intro i _ h1 h2; omega
  · intro i h1 h2 Ri hR
    refine Ok.bind (P := fun _ => True) ?_ fun sum _ => ?_
    · refine (loopFT_inv (fun _ _ => True) (by omega) trivial ?_)
      intro m m1 m2 sum _
      obtain ⟨g, hg⟩ := hG.rd m1 m2 hN
      rw [hg, ok_bind]
      unfold DctCache.rdRi
      rw [Arr.rd_nat (by omega), ok_bind, Arr.rd_nat (by omega), ok_bind]
      exact Ok.ok trivial
    · rw [Loc.wr_nat (by omega)]
      refine Ok.ok (Init.set ?_)
      intro j hj h1' h2' hne
      exact hR j hj h1' (by omega)
  · intro Ri h
    simpa using h

/-- Row `i`, columns `1 .. J` are initialised. -/
def Init2 {a b : Nat} {α : Type} (C : Arr a (Loc b α)) (i J : Nat) : Prop :=
  ∀ (hi : i < a), Init J (C ⟨i, hi⟩)

theorem idctBlock_ok {r n a b : Nat} (cache : DctCache F r n) {C : Arr a (Loc b F)} {i ji : Nat} (hC : Init2 C i ji)
    (hi : i < a) (hb : ji < b) (hn : ji < n) {s : Arr 57 F × Int} {l : Nat} (hl : s.2 = (l : Int)) (hl' : l + ji ≤ 57) :
    Ok (idctBlock cache C i ji s) fun s' => s'.2 = ((l + ji : Nat) : Int) := by
  unfold idctBlock
  refine (loopFT_inv (lo := 1) (hi := ji) (fun j (s : Arr 57 F × Int) => s.2 = ((l + (j - 1) : Nat) : Int)) (by omega) ?_ ?_).mono ?_
  · simpa using hl
  · rintro j j1 j2 ⟨Tl, l'⟩ hs
    dsimp only at hs ⊢
    subst hs
    refine Ok.bind (P := fun _ => True) ?_ fun sum _ => ?_
    · refine (loopFT_inv (fun _ _ => True) (by omega) trivial ?_)
      intro k k1 k2 sum _
      obtain ⟨c, hc⟩ := hC hi k (by omega) k1 k2
      have : Loc.rd2 C (i : Int) (k : Int) = .ok c := Loc.rd2_nat hi (by omega) hc
      rw [this, ok_bind]
      unfold DctCache.rdIdct
      rw [Arr.rd_nat (by omega), ok_bind, Arr.rd_nat (by omega), ok_bind, Arr.rd_nat (by omega), ok_bind]
      exact Ok.ok trivial
    · rw [Arr.wr_nat (by omega), ok_bind]
      refine Ok.ok ?_
      show ((_ : Nat) : Int) + 1 = ((_ : Nat) : Int)
      omega
  · intro s' h
    simpa using h

theorem Init2.set2 {a b : Nat} {α : Type} {C : Arr a (Loc b α)} {i k i' J : Nat} {v : α}
    (h : ∀ (hi : i' < a), ∀ j (hj : j < b), 1 ≤ j → j ≤ J → ¬ (i' = i ∧ j = k) → ∃ v, C ⟨i', hi⟩ ⟨j, hj⟩ = some v) :
    Init2 (Loc.set2 C i k v) i' J := by
  intro hi j hj h1 h2
  by_cases e : i' = i ∧ j = k
  · exact ⟨v, if_pos e⟩
  · obtain ⟨w, hw⟩ := h hi j hj h1 h2 e
    exact ⟨w, by rw [← hw]; exact if_neg e⟩

/-- `J_i`, 0-based. -/
def Jn (n i : Nat) : Nat := (ImbeJi.getD n []).getD i 0

/-- Sum of the block lengths before block `i` (0-based). -/
def Jsum (n : Nat) : Nat → Nat
  | 0 => 0
  | i + 1 => Jsum n i + Jn n i

theorem Jn_range {n i : Nat} (hn : n < 48) (hi : i < 6) : 1 ≤ Jn n i ∧ Jn n i ≤ 10 := by
  obtain ⟨h1, h2, _⟩ := ji_shape n hn
  have := List.all_eq_true.mp h2 _ (getD_mem (x := 0) (show i < (ImbeJi.getD n []).length by omega))
  simpa [Jn] using this

theorem Jsum_six {n : Nat} (hn : n < 48) : Jsum n 6 = n + 9 := by
  obtain ⟨h1, _, h3⟩ := ji_shape n hn
  rw [← h3]
  simp only [Jsum, Jn]
  generalize ImbeJi.getD n [] = r at h1
  match r, h1 with
  | [a, b, c, d, e, f], _ => simp [List.getD]; omega

theorem Jsum_ge {n : Nat} (hn : n < 48) : ∀ i, i ≤ 6 → i ≤ Jsum n i := by
  intro i
  induction i with
  | zero => intro _; simp [Jsum]
  | succ i ih =>
    intro h
    have := ih (by omega)
    have := (Jn_range hn (show i < 6 by omega)).1
    simp only [Jsum]; omega

theorem Jsum_mono {n : Nat} (hn : n < 48) : ∀ k i, i + k = 6 → Jsum n i + k ≤ n + 9 := by
  intro k
  induction k with
  | zero => intro i h; have : i = 6 := by omega
            subst this; rw [Jsum_six hn]
  | succ k ih =>
    intro i h
    have h1 := ih (i + 1) (by omega)
    have h2 := (Jn_range hn (show i < 6 by omega)).1
    simp only [Jsum] at h1; omega

theorem tab2_Ji {n i : Nat} (hn : n < 48) (h1 : 1 ≤ i) (h2 : i ≤ 6) :
    tab2 ImbeJi (n : Int) ((i : Int) - 1) = .ok (Jn n (i - 1)) := by
  unfold tab2
  rw [tabI_getD (x := []) (by rw [ji_length]; exact hn), ok_bind, show (i : Int) - 1 = ((i - 1 : Nat) : Int) by omega]
  exact tabI_getD (by rw [(ji_shape n hn).1]; omega)

theorem imbeTl_ok {n : Nat} (hn : n < 48) (cache : DctCache F 7 11) {C : Arr 7 (Loc 11 F)}
    (hC : ∀ i, 1 ≤ i → i ≤ 6 → Init2 C i (Jn n (i - 1))) : Ok (imbeTl cache (n : Int) C) fun _ => True := by
  unfold imbeTl
  refine Ok.bind (loopFT_inv (lo := 1) (hi := 6) (fun i (s : Arr 57 F × Int) => s.2 = ((1 + Jsum n (i - 1) : Nat) : Int))
    (by omega) rfl ?_) fun s _ => Ok.ok trivial
  intro i h1 h2 s hs
  rw [tab2_Ji hn h1 h2, ok_bind]
  have hr := Jn_range hn (show i - 1 < 6 by omega)
  have hm := Jsum_mono hn (6 - i) i (by omega)
  have he : Jsum n i = Jsum n (i - 1) + Jn n (i - 1) := by
    obtain ⟨j, rfl⟩ : ∃ j, i = j + 1 := ⟨i - 1, by omega⟩
    rfl
  refine (idctBlock_ok cache (hC i h1 h2) (by omega) (by omega) (by omega) hs (by omega)).mono fun s' hs' => ?_
  rw [hs', Nat.add_sub_cancel, he]
  congr 1
  omega

theorem hocBits_eq {n m : Nat} (h1 : 8 ≤ m) (h2 : m ≤ n + 10) : rowBits (n + 9) m = (hoba.getD n []).getD (m - 8) 0 := by
  unfold rowBits hocBits
  rw [if_neg (by omega), if_neg (by omega), if_neg (by omega), if_neg (by omega), if_pos (by omega)]
  rfl

theorem imbeCik_ok {n : Nat} {d : Nat → Int} {bb : Arr 58 (Loc 12 Int)} (hb : BB n d bb) (hn : n < 48)
    (hd : Bits 88 d) {Ri : Loc 7 F} (hR : Init 6 Ri) :
    Ok (imbeCik bb (n : Int) Ri) fun C => ∀ i, 1 ≤ i → i ≤ 6 → Init2 C i (Jn n (i - 1)) := by
  unfold imbeCik
  refine Ok.bind (loopFT_inv (lo := 1) (hi := 6) (fun i (s : Arr 7 (Loc 11 F) × Int) =>
    (∀ i', 1 ≤ i' → i' < i → Init2 s.1 i' (Jn n (i' - 1))) ∧ s.2 = ((8 + (Jsum n (i - 1) - (i - 1)) : Nat) : Int))
    (by omega) ⟨fun i' _ _ => by omega, rfl⟩ ?_) fun s hs => Ok.ok fun i h1 h2 => hs.1 i h1 (by omega)
  rintro i h1 h2 ⟨C, m⟩ ⟨i1, i2⟩
  dsimp only at i1 i2 ⊢
  obtain ⟨r, hr⟩ := hR.rd h1 h2 (by decide)
  rw [hr, ok_bind, show ((1 : Int)) = ((1 : Nat) : Int) from rfl, Loc.wr2_nat (by omega) (by decide), ok_bind,
    show ((1 : Nat) : Int) = 1 from rfl, tab2_Ji hn h1 h2, ok_bind]
  have hJ := Jn_range hn (show i - 1 < 6 by omega)
  have hm := Jsum_mono hn (6 - i) i (by omega)
  have hge := Jsum_ge hn (i - 1) (by omega)
  have he : Jsum n i = Jsum n (i - 1) + Jn n (i - 1) := by
    obtain ⟨j, rfl⟩ : ∃ j, i = j + 1 := ⟨i - 1, by omega⟩
    rfl
  have hhs := hoba_shape n hn
  refine (loopFT_inv (lo := 2) (hi := Jn n (i - 1)) (fun k (s : Arr 7 (Loc 11 F) × Int) =>
    (∀ i', 1 ≤ i' → i' < i → Init2 s.1 i' (Jn n (i' - 1))) ∧ Init2 s.1 i (k - 1) ∧
    s.2 = ((8 + (Jsum n (i - 1) - (i - 1)) + (k - 2) : Nat) : Int)) (by omega) ⟨?_, ?_, ?_⟩ ?_).mono ?_
  · intro i' a b
    exact Init2.set2 fun hi j hj c1 c2 _ => i1 i' a b hi j hj c1 c2
  · exact Init2.set2 fun hi j hj c1 c2 c3 => absurd ⟨rfl, by omega⟩ c3
  · exact i2
  · rintro k k1 k2 ⟨C', m'⟩ ⟨j1, j2, j3⟩
    dsimp only at j1 j2 j3 ⊢
    set mm : Nat := 8 + (Jsum n (i - 1) - (i - 1)) + (k - 2) with hmm
    have hmb : mm - 8 < 50 ∧ 8 ≤ mm ∧ mm ≤ n + 10 := by
      clear_value mm
      have := Jsum_ge hn i h2
      omega
    have hrow := hocBits_eq (n := n) hmb.2.1 hmb.2.2
    subst j3
    have ht : tab2 hoba (n : Int) ((mm : Int) - 8) = .ok (rowBits (n + 9) mm) := by
      unfold tab2
      rw [tabI_getD (x := []) (by rw [hoba_length]; exact hn), ok_bind, hrow,
        show (mm : Int) - 8 = ((mm - 8 : Nat) : Int) by omega]
      exact tabI_getD (by rw [hhs.1]; exact hmb.1)
    rw [ht, ok_bind]
    have hle : rowBits (n + 9) mm ≤ 11 := by
      rw [hrow]
      have := List.all_eq_true.mp hhs.2 _ (getD_mem (x := 0) (show mm - 8 < (hoba.getD n []).length by rw [hhs.1]; exact hmb.1))
      simpa using this
    have fin : ∀ v : F, Ok (do .ok (← Loc.wr2 C' (i : Int) (k : Int) v, (mm : Int) + 1) : Exec (Arr 7 (Loc 11 F) × Int))
        fun s => (∀ i', 1 ≤ i' → i' < i → Init2 s.1 i' (Jn n (i' - 1))) ∧ Init2 s.1 i (k + 1 - 1) ∧
          s.2 = ((8 + (Jsum n (i - 1) - (i - 1)) + (k + 1 - 2) : Nat) : Int) := by
      intro v
      rw [Loc.wr2_nat (by omega) (by omega), ok_bind]
      refine Ok.ok ⟨?_, ?_, ?_⟩
      · intro i' a b
        exact Init2.set2 fun hi j hj c1 c2 _ => j1 i' a b hi j hj c1 c2
      · refine Init2.set2 fun hi j hj c1 c2 c3 => j2 hi j hj c1 ?_
        have : j ≠ k := fun e => c3 ⟨rfl, e⟩
        omega
      · show (mm : Int) + 1 = ((_ : Nat) : Int)
        clear_value mm
        omega
    refine Ok.ite (fun _ => fin _) (fun h0 => ?_)
    obtain ⟨hbf, _⟩ := bbField_ok (w := rowBits (n + 9) mm) hb hn hd (show mm < 58 by clear_value mm; omega) rfl
    rw [hbf, ok_bind, show ((rowBits (n + 9) mm : Nat) : Int) - 1 = ((rowBits (n + 9) mm - 1 : Nat) : Int) by omega,
      tabI_getD (x := 0) (by rw [quantstep_length]; omega), ok_bind,
      show (k : Int) - 2 = ((k - 2 : Nat) : Int) by omega,
      tabI_getD (x := 0) (by rw [standdev_length]; omega), ok_bind]
    exact fin _
  · rintro ⟨C', m'⟩ ⟨j1, j2, j3⟩
    dsimp only at j1 j2 j3 ⊢
    refine ⟨fun i' a b => ?_, ?_⟩
    · by_cases e : i' = i
      · subst e; simpa using j2
      · exact j1 i' a (by omega)
    · rw [j3, Nat.add_sub_cancel, he]
      congr 1
      omega

/-! ## Previous frame and prediction -/

theorem extendPrev_ok {L : Nat} {prev : Parms F} (hL : L ≤ 56) (h0 : 0 ≤ prev.L) (h1 : prev.L ≤ 56) :
    Ok (extendPrev (L : Int) prev) (SameButAmps prev) := by
  unfold extendPrev
  refine Ok.ite (fun h => ?_) (fun _ => Ok.ok (SameButAmps.refl _))
  refine (loop_inv (fun _ p => SameButAmps prev p) (SameButAmps.refl _) ?_)
  intro i hi p hp
  have e : p.L = prev.L := by rw [hp]
  rw [Arr.rd_ok (by omega) (by omega), ok_bind, Arr.wr_ok (by omega) (by omega), ok_bind,
    Arr.rd_ok (by omega) (by omega), ok_bind, Arr.wr_ok (by omega) (by omega), ok_bind]
  exact Ok.ok (hp.trans rfl)

theorem rdLog2_ok {lax : Bool} {p : Parms F} {i : Int} (h0 : 0 ≤ i) (h1 : i ≤ 57) (h : lax = true ∨ i ≤ 56) :
    ∃ v, rdLog2 lax p i = .ok v := by
  unfold rdLog2
  by_cases c : i = 57 ∧ lax = true
  · rw [if_pos c]; exact ⟨_, Arr.rd_ok (by decide) (by decide)⟩
  · rw [if_neg c]
    have : i ≠ 57 := by
      rcases h with h | h
      · exact fun e => c ⟨e, h⟩
      · omega
    exact ⟨_, Arr.rd_ok h0 (by omega)⟩

variable {m : Libm}

/-- The subscripts that the prediction uses. -/
def Kl (p L l : Nat) : Int := ⌊klQ p L l⌋

/-- No access outside `log2Ml` happens: either the access is given the value of the adjacent member, or the last
subscript stays below 56. -/
def NoOver (lax : Bool) (p L : Nat) : Prop := lax = true ∨ Kl p L L ≤ 55

theorem Kl_range {p L l : Nat} (hp : p ≤ 56) (hL : 1 ≤ L) (hL' : L ≤ 56) (hl : l ≤ L) : 0 ≤ Kl p L l ∧ Kl p L l ≤ p :=
  ⟨(floor_klQ hp hL hL' hl).1, (floor_klQ hp hL hL' hl).2.1⟩

theorem NoOver.ok {lax : Bool} {p L l : Nat} (h : NoOver lax p L) (hp : p ≤ 56) (hL : 1 ≤ L) (hL' : L ≤ 56) (hl : l ≤ L) :
    lax = true ∨ Kl p L l + 1 ≤ 56 := by
  rcases h with h | h
  · exact .inl h
  · right
    by_cases e : l = L
    · subst e; omega
    · have := (floor_klQ hp hL hL' hl).2.2 (by omega)
      unfold Kl; omega

/-- Contents of `intkl` and `deltal` after part 1. -/
def KlInv (p L i : Nat) (ik : Loc 57 Int) (dl : Loc 57 (IEEE m)) : Prop :=
  ∀ l (h : l < 57), 1 ≤ l → l < i → ik ⟨l, h⟩ = some (Kl p L l) ∧
    dl ⟨l, h⟩ = some (flokl (p : Int) (L : Int) l -ᶠ ofInt (Kl p L l))

theorem imbePredict1_step {lax : Bool} {p L l : Nat} {prev : Parms (IEEE m)} (hpL : prev.L = (p : Int)) (hp : p ≤ 56)
    (hL : 1 ≤ L) (hL' : L ≤ 56) (h1 : 1 ≤ l) (h2 : l ≤ L) (hno : lax = true ∨ Kl p L l + 1 ≤ 56)
    {s : Loc 57 Int × Loc 57 (IEEE m) × IEEE m} (hs : KlInv p L l s.1 s.2.1) :
    Ok (do
      let kl : IEEE m := flokl prev.L (L : Int) l
      let ik ← toI32 kl
      let intkl ← s.1.wr l ik
      let dl := kl -ᶠ ofInt ik
      let deltal ← s.2.1.wr l dl
      let a ← rdLog2 lax prev ik
      let b ← rdLog2 lax prev (ik + 1)
      .ok (intkl, deltal, s.2.2 +ᶠ (((ofInt 1 -ᶠ dl) *ᶠ a) +ᶠ (dl *ᶠ b))) : Exec (Loc 57 Int × Loc 57 (IEEE m) × IEEE m))
      fun s => KlInv p L (l + 1) s.1 s.2.1 := by
  have hr := Kl_range hp hL hL' h2
  simp only [hpL]
  rw [toI32_flokl hp hL hL' h2, ok_bind]
  rw [show ⌊klQ p L l⌋ = Kl p L l from rfl]
  rw [Loc.wr_nat (by omega), ok_bind, Loc.wr_nat (by omega), ok_bind]
  obtain ⟨a, ha⟩ := rdLog2_ok (lax := lax) (p := prev) hr.1 (by omega) (.inr (by omega))
  obtain ⟨b, hb⟩ := rdLog2_ok (lax := lax) (p := prev) (i := Kl p L l + 1) (by omega) (by omega) hno
  rw [ha, ok_bind, hb, ok_bind]
  refine Ok.ok ?_
  intro l' hl' c1 c2
  by_cases e : l' = l
  · subst e; exact ⟨Arr.set_same rfl, Arr.set_same rfl⟩
  · have := hs l' hl' c1 (by omega)
    exact ⟨by rw [← this.1]; exact Arr.set_ne e, by rw [← this.2]; exact Arr.set_ne e⟩

theorem imbePredict1_ok {lax : Bool} {p L : Nat} {prev : Parms (IEEE m)} (hpL : prev.L = (p : Int)) (hp : p ≤ 56)
    (hL : 1 ≤ L) (hL' : L ≤ 56) (hno : NoOver lax p L) :
    Ok (imbePredict1 lax (L : Int) prev) fun s => KlInv p L (L + 1) s.1 s.2.1 := by
  unfold imbePredict1
  rw [Int.toNat_natCast]
  exact loopFT_inv (fun i (s : Loc 57 Int × Loc 57 (IEEE m) × IEEE m) => KlInv p L i s.1 s.2.1) (by omega)
    (fun _ _ _ _ => by omega)
    fun l h1 h2 s hs => imbePredict1_step hpL hp hL hL' h1 h2 (hno.ok hp hL hL' h2) hs

/-- Without the extra element, part 1 reads `log2Ml[57]` in its last step. -/
theorem imbePredict1_over {p L : Nat} {prev : Parms (IEEE m)} (hpL : prev.L = (p : Int)) (hp : p ≤ 56)
    (hL : 1 ≤ L) (hL' : L ≤ 56) (hover : Kl p L L = 56) : imbePredict1 false (L : Int) prev = .error .oobRead := by
  unfold imbePredict1 loopFT
  rw [Int.toNat_natCast, Nat.add_sub_cancel]
  obtain ⟨k, rfl⟩ : ∃ k, L = k + 1 := ⟨L - 1, by omega⟩
  rw [loop_succ]
  have := loop_inv (n := k) (f := fun (j : Nat) (s : Loc 57 Int × Loc 57 (IEEE m) × IEEE m) => (do
      let kl : IEEE m := flokl prev.L ((k + 1 : Nat) : Int) (1 + j)
      let ik ← toI32 kl
      let intkl ← s.1.wr ((1 + j : Nat) : Int) ik
      let dl := kl -ᶠ ofInt ik
      let deltal ← s.2.1.wr ((1 + j : Nat) : Int) dl
      let a ← rdLog2 false prev ik
      let b ← rdLog2 false prev (ik + 1)
      .ok (intkl, deltal, s.2.2 +ᶠ (((ofInt 1 -ᶠ dl) *ᶠ a) +ᶠ (dl *ᶠ b))) : Exec (Loc 57 Int × Loc 57 (IEEE m) × IEEE m)))
      (s := (Loc.fresh 57 Int, Loc.fresh 57 (IEEE m), fi 0))
      (fun j s => KlInv p (k + 1) (1 + j) s.1 s.2.1) (fun _ _ _ _ => by omega) (fun j hj s hs => by
        have hlt := (floor_klQ hp hL hL' (show 1 + j ≤ k + 1 by omega)).2.2 (by omega)
        exact imbePredict1_step hpL hp hL hL' (by omega) (by omega) (.inr (by unfold Kl; omega)) hs)
  obtain ⟨s, hs, _⟩ := this
  rw [hs, ok_bind]
  simp only [hpL]
  rw [show 1 + k = k + 1 by omega, toI32_flokl hp hL hL' (le_refl _), ok_bind]
  have e : ⌊klQ p (k + 1) (k + 1)⌋ = 56 := hover
  rw [e, Loc.wr_nat (by omega), ok_bind, Loc.wr_nat (by omega), ok_bind]
  obtain ⟨a, ha⟩ := rdLog2_ok (lax := false) (p := prev) (i := 56) (by omega) (by omega) (.inr (by omega))
  rw [ha, ok_bind]
  rfl

theorem imbePredict2_ok {lax : Bool} {p L : Nat} {prev : Parms (IEEE m)} (hp : p ≤ 56) (hL : 1 ≤ L) (hL' : L ≤ 56)
    (hno : NoOver lax p L) {ik : Loc 57 Int} {dl : Loc 57 (IEEE m)} (hk : KlInv p L (L + 1) ik dl)
    (rho s77 : IEEE m) (Tl : Arr 57 (IEEE m)) (cur : Parms (IEEE m)) :
    Ok (imbePredict2 lax (L : Int) prev ik dl rho s77 Tl cur) (SameButAmps cur) := by
  unfold imbePredict2
  rw [Int.toNat_natCast]
  refine (loopFT_inv (fun _ c => SameButAmps cur c) (by omega) (SameButAmps.refl _) ?_)
  intro l h1 h2 c hc
  obtain ⟨k1, k2⟩ := hk l (by omega) h1 (by omega)
  have hr := Kl_range hp hL hL' h2
  obtain ⟨a, ha⟩ := rdLog2_ok (lax := lax) (p := prev) hr.1 (by omega) (.inr (by omega))
  obtain ⟨b, hb⟩ := rdLog2_ok (lax := lax) (p := prev) (i := Kl p L l + 1) (by omega) (by omega) (hno.ok hp hL hL' h2)
  rw [Loc.rd_nat (by omega) k2, ok_bind, Loc.rd_nat (by omega) k1, ok_bind, ha, ok_bind, hb, ok_bind,
    Arr.rd_nat (by omega), ok_bind]
  simp only []
  rw [Arr.wr_nat (by omega), ok_bind, Arr.wr_nat (by omega), ok_bind]
  exact Ok.ok (hc.trans rfl)

/-! ## Gain vector -/

theorem toI32_ftab_int0 : ∀ b : Nat, b < 11 → fpToI32 (ftabFP ((b : Int) * 1000000) ba_den) = .ok (b : Int) := by
  decide +kernel

theorem toI32_ftab_int {b : Nat} (h : b < 11) : toI32 (ftab ((b : Int) * 1000000) ba_den : IEEE m) = .ok (b : Int) := by
  rw [toI32_ieee]
  exact (congrArg fpToI32 (ftab_ieee _ _)).trans (toI32_ftab_int0 b h)

/-- The gain vector for any arithmetic in which the bit counts of `ba` convert exactly. -/
theorem imbeGm_ok' {F : Type} [Arith F] (hI : ∀ {b : Nat}, b < 11 → toI32 (ftab ((b : Int) * 1000000) ba_den : F) = .ok (b : Int))
    {n : Nat} {d : Nat → Int} {bb : Arr 58 (Loc 12 Int)} (hb : BB n d bb) (hn : n < 48)
    (hd : Bits 88 d) : Ok (imbeGm bb (n : Int) : Exec (Loc 7 F)) (Init 6) := by
  unfold imbeGm
  obtain ⟨h2, h2'⟩ := bbField_ok (r := 2) (w := 6) hb hn hd (by decide) rfl
  have h2'' : bbField bb 2 6 = .ok (rowVal n 2 6 d) := h2
  have hs := ba_shape n hn
  rw [h2'', ok_bind, tabI_getD (x := 0) (by rw [B2_length]; omega), ok_bind, show ((1 : Int)) = ((1 : Nat) : Int) from rfl,
    Loc.wr_nat (by decide), ok_bind, tabI_getD (x := []) (by rw [ba_length]; exact hn), ok_bind]
  refine (loopFT_inv (lo := 2) (hi := 6) (fun i (G : Loc 7 F) => Init (i - 1) G) (by omega) ?_ ?_).mono
    fun G h => by simpa using h
  · exact Init.set fun j hj c1 c2 c3 => absurd (show j = 1 by omega) c3
  · intro i h1 h2 G hG
    have hlt : i - 2 < (ba.getD n []).length := by omega
    rw [tab_getD (x := []) hlt, ok_bind]
    have he := List.all_eq_true.mp hs.2 _ (getD_mem (x := []) hlt)
    simp only [Bool.and_eq_true, beq_iff_eq, List.any_eq_true, List.mem_range] at he
    obtain ⟨he1, b, hb1, hb2⟩ := he
    rw [tab_getD (x := 0) (by omega), ok_bind, tab_getD (x := 0) (by omega), ok_bind, hb2]
    simp only []
    rw [hI hb1, ok_bind]
    have hw : b = rowBits (n + 9) (i + 1) := by
      unfold rowBits gainBits
      rw [if_neg (by omega), if_neg (by omega), if_neg (by omega), if_pos (by omega), Nat.add_sub_cancel,
        Nat.add_sub_cancel, hb2]
      simp [ba_den]
    obtain ⟨hf, _⟩ := bbField_ok (r := i + 1) hb hn hd (by omega) hw
    rw [show (i : Int) + ((1 : Nat) : Int) = ((i + 1 : Nat) : Int) by omega, hf, ok_bind, Loc.wr_nat (by omega)]
    refine Ok.ok (Init.set ?_)
    intro j hj c1 c2 c3
    exact hG j hj c1 (by omega)

theorem imbeGm_ok {n : Nat} {d : Nat → Int} {bb : Arr 58 (Loc 12 Int)} (hb : BB n d bb) (hn : n < 48)
    (hd : Bits 88 d) : Ok (imbeGm bb (n : Int) : Exec (Loc 7 (IEEE m))) (Init 6) := imbeGm_ok' toI32_ftab_int hb hn hd

/-! ## The whole decoder -/

theorem imbeDecodeBody_ok {lax : Bool} {n p : Nat} {d : Nat → Int} {cur prev : Parms (IEEE m)} {t : Tls (IEEE m)}
    (hn : n < 48) (hd : Bits 88 d) (hpL : prev.L = (p : Int)) (hp : p ≤ 56) (hno : NoOver lax p (n + 9)) :
    Ok (imbeDecodeBody lax d ((n + 9 : Nat) : Int) (imbeBands (n + 9) : Nat) cur prev t) fun r =>
      r.bad = 0 ∧ ∃ V, SameButAmps { cur with Vl := V } r.cur ∧ SameButAmps prev r.prev ∧
        ∀ i : Fin 57, V i = if 1 ≤ i.val ∧ i.val ≤ n + 9 then
          bandBit n d (imbeBands (n + 9)) (min ((i.val - 1) / 3) (imbeBands (n + 9) - 1)) else cur.Vl i := by
  unfold imbeDecodeBody
  rw [show (((n + 9 : Nat) : Int) - 9) = (n : Int) by omega]
  simp only []
  refine Ok.bind (imbeReadBits_ok hn d) fun bb hbb => ?_
  refine Ok.bind (imbeVoicing_ok hbb hn hd cur.Vl) fun V hV => ?_
  refine Ok.bind (imbeGm_ok hbb hn hd) fun Gm hG => ?_
  refine Ok.bind (idctRi_ok _ hG (by decide)) fun Ri hR => ?_
  refine Ok.bind (imbeCik_ok hbb hn hd hR) fun C hC => ?_
  refine Ok.bind (imbeTl_ok hn _ hC) fun Tl _ => ?_
  refine Ok.bind (extendPrev_ok (by omega) (by omega) (by omega)) fun prev' hprev => ?_
  have hpL' : prev'.L = (p : Int) := by rw [hprev]; exact hpL
  refine Ok.bind (imbePredict1_ok hpL' hp (by omega) (by omega) hno) fun q hq => ?_
  refine Ok.bind (imbePredict2_ok hp (by omega) (by omega) hno hq _ _ _ _) fun c hc => Ok.ok ⟨rfl, V, hc, hprev, hV⟩

theorem imbeDecodeBody_over {n p : Nat} {d : Nat → Int} {cur prev : Parms (IEEE m)} {t : Tls (IEEE m)}
    (hn : n < 48) (hd : Bits 88 d) (hpL : prev.L = (p : Int)) (hp : p ≤ 56) (hover : Kl p (n + 9) (n + 9) = 56) :
    imbeDecodeBody false d ((n + 9 : Nat) : Int) (imbeBands (n + 9) : Nat) cur prev t = .error .oobRead := by
  unfold imbeDecodeBody
  rw [show (((n + 9 : Nat) : Int) - 9) = (n : Int) by omega]
  simp only []
  obtain ⟨bb, e, hbb⟩ := imbeReadBits_ok hn d
  rw [e, ok_bind]
  obtain ⟨V, e, hV⟩ := imbeVoicing_ok hbb hn hd cur.Vl
  rw [e, ok_bind]
  obtain ⟨Gm, e, hG⟩ := imbeGm_ok (m := m) hbb hn hd
  rw [e, ok_bind]
  obtain ⟨Ri, e, hR⟩ := idctRi_ok (imbeGetCache t).1 hG (by decide)
  rw [e, ok_bind]
  obtain ⟨C, e, hC⟩ := imbeCik_ok hbb hn hd hR
  rw [e, ok_bind]
  obtain ⟨Tl, e, _⟩ := imbeTl_ok hn (imbeGetCache t).1 hC
  rw [e, ok_bind]
  obtain ⟨prev', e, hprev⟩ := extendPrev_ok (prev := prev) (show n + 9 ≤ 56 by omega) (by omega) (by omega)
  rw [e, ok_bind]
  have hpL' : prev'.L = (p : Int) := by rw [hprev]; exact hpL
  rw [imbePredict1_over hpL' hp (by omega) (by omega) hover]
  rfl

end Verif.Model
