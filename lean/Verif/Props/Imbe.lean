import Verif.Lemmas.ImbeDecode
import Verif.Lemmas.Convert

/-!
# Properties of the IMBE parameter decoder (C12, C14, C15, C16)

`IEEE m` is binary32/binary64 arithmetic with an arbitrary libm `m`.
-/

namespace Verif.Props
open Verif Verif.Spec Verif.Model Verif.Num

variable {m : Libm}

/-- A payload used in the examples: fundamental 0, all other bits set. -/
def samplePayload : Nat → Int := fun i => if i < 6 ∨ i = 85 ∨ i = 86 then 0 else 1

theorem samplePayload_bits : Bits 88 samplePayload := by
  intro i _; unfold samplePayload; split
  · exact .inl rfl
  · exact .inr rfl

theorem imbeHarmonics_eq (b0 : Nat) : imbeHarmonics b0 = (imbeLTab b0 : Nat) := by
  have e1 : ⌊((b0 : ℚ) + 39.5) / 4 + 0.25⌋ = ((b0 + 40) / 4 : Nat) := by
    rw [Int.floor_eq_iff]
    have h := Nat.div_add_mod (b0 + 40) 4
    have h2 := Nat.mod_lt (b0 + 40) (show 0 < 4 by decide)
    set k := (b0 + 40) / 4
    set r := (b0 + 40) % 4
    have hq : (b0 : ℚ) + 40 = 4 * k + r := by exact_mod_cast h.symm
    have hr : (r : ℚ) ≤ 3 := by exact_mod_cast (show r ≤ 3 by omega)
    have hr0 : (0 : ℚ) ≤ r := by positivity
    push_cast
    constructor <;> norm_num <;> linarith
  unfold imbeHarmonics imbeLTab
  rw [e1, Int.floor_eq_iff]
  set k := (b0 + 40) / 4
  have h := Nat.div_add_mod (9254 * k) 10000
  have h2 := Nat.mod_lt (9254 * k) (show 0 < 10000 by decide)
  set q := 9254 * k / 10000
  set r := 9254 * k % 10000
  have hq : (9254 : ℚ) * k = 10000 * q + r := by exact_mod_cast h.symm
  have hr : (r : ℚ) ≤ 9999 := by exact_mod_cast (show r ≤ 9999 by omega)
  have hr0 : (0 : ℚ) ≤ r := by positivity
  push_cast
  constructor <;> linarith

/-! ## C12 -/

/-- The reordering succeeds for every payload and copies to every position exactly one payload bit, according to a fixed
table that only depends on the number of voicing bands. -/
theorem C12_convert_moves_bits (d : Nat → Int) (hd : Bits 88 d) :
    ∃ out, convert7100to7200 (IEEE m) d = .ok out ∧
      ∀ i, i < 88 → out i = d (convSrc (imbeBands (imbeHarmonics (imbeFund7100 d)).toNat) i) := by
  rw [convert_eq hd, imbeHarmonics_eq, Int.toNat_natCast]
  have hlt : imbeFund7100 d < 256 := fieldVal_lt (is := [1, 2, 3, 4, 5, 6, 86, 87]) fun i hi => by
    refine hd i ?_
    revert i; decide
  have h9 := imbeLTab_ge _ hlt
  rw [show fieldVal d [1, 2, 3, 4, 5, 6, 86, 87] = imbeFund7100 d from rfl]
  exact convWithK_eq (by unfold imbeBands; omega) (by unfold imbeBands; omega) d

/-- The table is a permutation of the 88 positions for every possible number of bands. -/
theorem C12_convert_permutation (L : Nat) (hL : 9 ≤ L) :
    ∃ σ : Equiv.Perm (Fin 88), ∀ i : Fin 88, ((σ i : Fin 88) : Nat) = convSrc (imbeBands L) i := by
  have h1 : 3 ≤ imbeBands L := by unfold imbeBands; omega
  have h2 : imbeBands L ≤ 12 := by unfold imbeBands; omega
  let f : Fin 88 → Fin 88 := fun i => ⟨convSrc (imbeBands L) i, convSrc_lt _ (by omega) h1 i i.isLt⟩
  have hf : Function.Injective f := by
    intro i j h
    exact Fin.ext (convSrc_inj h1 h2 i.isLt j.isLt (congrArg Fin.val h))
  exact ⟨Equiv.ofBijective f (Finite.injective_iff_bijective.mp hf), fun i => rfl⟩

/-- The fundamental of the reordered payload, at its 7200x4400 position, is the fundamental of the original one. -/
theorem C12_convert_fundamental (d : Nat → Int) (hd : Bits 88 d) (out : Nat → Int)
    (h : convert7100to7200 (IEEE m) d = .ok out) : imbeFund out = imbeFund7100 d ∧ Bits 88 out := by
  obtain ⟨o, ho, hm⟩ := C12_convert_moves_bits (m := m) d hd
  rw [h] at ho
  cases ho
  have hlt : imbeFund7100 d < 256 := fieldVal_lt (is := [1, 2, 3, 4, 5, 6, 86, 87]) fun i hi => by
    refine hd i ?_
    revert i; decide
  have h9 := imbeLTab_ge _ hlt
  rw [imbeHarmonics_eq, Int.toNat_natCast] at hm
  set K := imbeBands (imbeLTab (imbeFund7100 d)) with hK
  have hK1 : 3 ≤ K := by rw [hK]; unfold imbeBands; omega
  have hK2 : K ≤ 12 := by rw [hK]; unfold imbeBands; omega
  constructor
  · unfold imbeFund imbeFund7100 fieldVal
    simp only [List.foldl_cons, List.foldl_nil]
    rw [hm 0 (by omega), hm 1 (by omega), hm 2 (by omega), hm 3 (by omega), hm 4 (by omega), hm 5 (by omega),
      hm 85 (by omega), hm 86 (by omega)]
    have e : ∀ i, i < 6 → convSrc K i = i + 1 := by
      intro i hi; unfold convSrc; rw [if_neg (by omega), if_pos (by omega)]
    have e' : ∀ i, 85 ≤ i → i < 87 → convSrc K i = i + 1 := by
      intro i h1 h2; unfold convSrc
      rw [if_neg (by omega), if_neg (by omega), if_neg (by omega), if_neg (by omega), if_neg (by omega), if_neg (by omega)]
    rw [e 0 (by omega), e 1 (by omega), e 2 (by omega), e 3 (by omega), e 4 (by omega), e 5 (by omega),
      e' 85 (by omega) (by omega), e' 86 (by omega) (by omega)]
  · intro i hi
    rw [hm i hi]
    exact hd _ (convSrc_lt K (by omega) hK1 i hi)

example : ∃ out, convert7100to7200 (IEEE m) samplePayload = .ok out ∧ Bits 88 out := by
  obtain ⟨o, ho, _⟩ := C12_convert_moves_bits (m := m) samplePayload samplePayload_bits
  exact ⟨o, ho, (C12_convert_fundamental _ samplePayload_bits _ ho).2⟩

/-! ## C14 -/

/-- An invalid fundamental is reported and changes nothing but `repeat_`, in every arithmetic. -/
theorem C14_invalid_fundamental {F : Type} [Arith F] (lax : Bool) (d : Nat → Int) (hd : Bits 88 d) (h : 207 < imbeFund d)
    (cur prev : Parms F) (t : Tls F) :
    decodeImbe4400 lax d cur prev t = .ok ⟨1, { cur with repeat_ := prev.repeat_ }, prev, t⟩ :=
  decodeImbe4400_bad hd h lax cur prev t

/-- A valid fundamental gives `L`, `K` and `w0` of the standard: the branch for `L` out of range is never taken. -/
theorem C14_valid_fundamental (lax : Bool) (d : Nat → Int) (hd : Bits 88 d) (h : imbeFund d ≤ 207)
    (cur prev : Parms (IEEE m)) (t : Tls (IEEE m)) (r : DecodeRes (IEEE m))
    (hr : decodeImbe4400 lax d cur prev t = .ok r) :
    r.bad = 0 ∧ r.cur.L = imbeHarmonics (imbeFund d) ∧ 9 ≤ r.cur.L ∧ r.cur.L ≤ 56 ∧
    r.cur.K = min 12 ⌈(r.cur.L : ℚ) / 3⌉ ∧
    ∃ q : ℚ, Val r.cur.w0 q ∧ 0 < q ∧
      |(q : ℝ) - 4 * Real.pi / (imbeFund d + 39.5)| ≤ (4 * Real.pi / (imbeFund d + 39.5)) / 2 ^ 23 := by
  rw [decodeImbe4400_good hd h] at hr
  obtain ⟨hb, V, hc⟩ := imbeDecodeBody_post lax d _ _ _ prev t r hr
  obtain ⟨r1, r2⟩ := imbeLTab_range (imbeFund d) (by omega)
  have eL : r.cur.L = (imbeLTab (imbeFund d) : Nat) := by rw [hc]
  have eK : r.cur.K = (imbeBands (imbeLTab (imbeFund d)) : Nat) := by rw [hc]
  have eW : r.cur.w0 = imbeW0 (imbeFund d) := by rw [hc]
  refine ⟨hb, ?_, by omega, by omega, ?_, ?_⟩
  · rw [eL, imbeHarmonics_eq]
  · rw [eK, eL]
    generalize imbeLTab (imbeFund d) = L
    have : ⌈(((L : Nat) : Int) : ℚ) / 3⌉ = (((L + 2) / 3 : Nat) : Int) := by
      rw [Int.ceil_eq_iff]
      have h1 := Nat.div_add_mod (L + 2) 3
      have h2 := Nat.mod_lt (L + 2) (show 0 < 3 by decide)
      set k := (L + 2) / 3
      set s := (L + 2) % 3
      have hq : (L : ℚ) + 2 = 3 * k + s := by exact_mod_cast h1.symm
      have hs : (s : ℚ) ≤ 2 := by exact_mod_cast (show s ≤ 2 by omega)
      have hs0 : (0 : ℚ) ≤ s := by positivity
      push_cast
      constructor <;> linarith
    rw [this]
    unfold imbeBands
    push_cast
    rfl
  · obtain ⟨q, hq⟩ := imbeW0_val (m := m) (b0 := imbeFund d) (by omega)
    exact ⟨q, by rw [eW]; exact hq.1, hq.2⟩

example : imbeFund samplePayload = 0 ∧ imbeHarmonics 0 = 9 ∧ imbeHarmonics 207 = 56 := by
  refine ⟨by decide, ?_, ?_⟩ <;> rw [imbeHarmonics_eq] <;> decide

/-! ## C15 -/

/-- Table `bo` is a bijection between the payload bits 6..84 and the quantiser bits, for every `L`. -/
theorem C15_allocation_bijective (L : Nat) (h9 : 9 ≤ L) (h56 : L ≤ 56) :
    (boCodes L).Perm (fieldCodes L) ∧ (boCodes L).Nodup ∧ (fieldCodes L).length = 79 := by
  obtain ⟨n, rfl⟩ : ∃ n, L = n + 9 := ⟨L - 9, by omega⟩
  have hn : n < 48 := by omega
  exact ⟨boCodes_perm hn, boCodes_nodup hn, by rw [← (boCodes_perm hn).length_eq, boCodes_length hn]⟩

/-- Distributing the payload: bit `k+6` goes to its own place; the written places are exactly the quantiser bits of the
rows (voicing, gain, gain vector, higher-order coefficients); all others stay uninitialised. -/
theorem C15_distribution (L : Nat) (h9 : 9 ≤ L) (h56 : L ≤ 56) (d : Nat → Int) :
    ∃ (place : Fin 79 → Fin 58 × Fin 12) (bb : Arr 58 (Loc 12 Int)),
      imbeReadBits ((L : Int) - 9) d = .ok bb ∧ Function.Injective place ∧
      (∀ (r : Fin 58) (c : Fin 12), (∃ k, place k = (r, c)) ↔ c.val < rowBits L r) ∧
      (∀ k : Fin 79, bb (place k).1 (place k).2 = some (d (k + 6))) ∧
      (∀ (r : Fin 58) (c : Fin 12), (∀ k, place k ≠ (r, c)) → bb r c = none) := by
  obtain ⟨n, rfl⟩ : ∃ n, L = n + 9 := ⟨L - 9, by omega⟩
  have hn : n < 48 := by omega
  obtain ⟨bb, hbb, hB⟩ := imbeReadBits_ok hn d
  refine ⟨fun k => (⟨(dest n k).1, (dest_lt hn k.isLt).1⟩, ⟨(dest n k).2, (dest_lt hn k.isLt).2⟩), bb, ?_, ?_, ?_, ?_, ?_⟩
  · rw [← hbb]; congr 1; push_cast; ring
  · intro j k h
    refine Fin.ext (dest_inj hn j.isLt k.isLt (Prod.ext ?_ ?_))
    · exact congrArg (fun p => p.1.val) h
    · exact congrArg (fun p => p.2.val) h
  · intro r c
    constructor
    · rintro ⟨k, hk⟩
      have hm : code r c ∈ fieldCodes (n + 9) := by
        refine (boCodes_perm hn).mem_iff.mp (List.mem_of_getElem? (i := k) ?_)
        rw [boCodes_get hn k.isLt, ← congrArg (fun p => p.1.val) hk, ← congrArg (fun p => p.2.val) hk]
      unfold fieldCodes at hm
      obtain ⟨r', hr', hm⟩ := List.mem_flatMap.mp hm
      obtain ⟨c', hc', he⟩ := List.mem_map.mp hm
      rw [List.mem_range] at hr' hc'
      have := rowBits_le n hn r' hr'
      have hc := c.isLt
      unfold code at he
      have e1 : r' = r.val := by omega
      have e2 : c' = c.val := by omega
      rw [← e1, ← e2]; exact hc'
    · intro h
      obtain ⟨k, hk, he⟩ := dest_surj hn r.isLt h
      exact ⟨⟨k, hk⟩, Prod.ext (Fin.ext (congrArg Prod.fst he)) (Fin.ext (congrArg Prod.snd he))⟩
  · intro k
    exact hB.written k k.isLt hn
  · intro r c h
    refine hB.untouched r c fun k hk he => h ⟨k, hk⟩ ?_
    exact Prod.ext (Fin.ext (congrArg Prod.fst he)) (Fin.ext (congrArg Prod.snd he))

/-- The voicing decision of harmonic `l` is the payload bit of its band; every band has its own payload bit and the last
band takes the remaining harmonics. Harmonics above `L` keep their old value. -/
theorem C15_voicing (lax : Bool) (d : Nat → Int) (hd : Bits 88 d) (h : imbeFund d ≤ 207) (cur prev : Parms (IEEE m))
    (t : Tls (IEEE m)) (r : DecodeRes (IEEE m)) (h0 : 0 ≤ prev.L) (h1 : prev.L ≤ 56)
    (hr : decodeImbe4400 lax d cur prev t = .ok r) :
    ∃ pos : Nat → Nat, (∀ j k : Nat, (j : Int) < r.cur.K → (k : Int) < r.cur.K → pos j = pos k → j = k) ∧
      (∀ k : Nat, (k : Int) < r.cur.K → 6 ≤ pos k ∧ pos k < 85) ∧
      ∀ l : Fin 57, r.cur.Vl l = if 1 ≤ l.val ∧ (l.val : Int) ≤ r.cur.L
        then d (pos (min ((l.val - 1) / 3) (r.cur.K.toNat - 1))) else cur.Vl l := by
  have hlax : decodeImbe4400 true d cur prev t = .ok r := by
    cases lax with
    | true => exact hr
    | false => exact (decodeImbe4400_lax d cur prev t).ok hr
  rw [decodeImbe4400_good hd h] at hlax
  obtain ⟨r1, r2⟩ := imbeLTab_range (imbeFund d) (by omega)
  obtain ⟨p, hp⟩ : ∃ p : Nat, prev.L = (p : Int) := ⟨prev.L.toNat, by omega⟩
  obtain ⟨n, hn⟩ : ∃ n, imbeLTab (imbeFund d) = n + 9 := ⟨imbeLTab (imbeFund d) - 9, by omega⟩
  rw [hn] at hlax r1 r2
  have hn48 : n < 48 := by omega
  obtain ⟨_, V, hc, _, hV⟩ := (imbeDecodeBody_ok (lax := true) (m := m) (t := t) hn48 hd hp (by omega)
    (.inl rfl)).of_eq hlax
  have eL : r.cur.L = (n + 9 : Nat) := by rw [hc]
  have eK : r.cur.K = (imbeBands (n + 9) : Nat) := by rw [hc]
  have eV : r.cur.Vl = V := by rw [hc]
  have hex : ∀ k, k < imbeBands (n + 9) → ∃ j, j < 79 ∧ dest n j = (1, imbeBands (n + 9) - 1 - k) :=
    fun k hk => dest_surj (r := 1) (c := imbeBands (n + 9) - 1 - k) hn48 (by decide) (by
      show _ < imbeBands (n + 9)
      omega)
  have hsrc : ∀ k, (hk : k < imbeBands (n + 9)) → ∃ j, j < 79 ∧ src n 1 (imbeBands (n + 9) - 1 - k) = j + 6 ∧
      dest n j = (1, imbeBands (n + 9) - 1 - k) := by
    intro k hk
    have ex := hex k hk
    exact ⟨ex.choose, ex.choose_spec.1, by unfold src; rw [dif_pos ex], ex.choose_spec.2⟩
  refine ⟨fun k => src n 1 (imbeBands (n + 9) - 1 - k), ?_, ?_, ?_⟩
  · intro j k hj hk he
    rw [eK] at hj hk
    obtain ⟨j', _, e1, f1⟩ := hsrc j (by omega)
    obtain ⟨k', _, e2, f2⟩ := hsrc k (by omega)
    simp only [e1, e2] at he
    have : j' = k' := by omega
    subst this
    rw [f1] at f2
    have := congrArg Prod.snd f2
    simp only at this
    omega
  · intro k hk
    rw [eK] at hk
    obtain ⟨k', h1, e2, _⟩ := hsrc k (by omega)
    simp only [e2]
    omega
  · intro l
    rw [eV, hV l, eL, eK, Int.toNat_natCast]
    by_cases c : 1 ≤ l.val ∧ l.val ≤ n + 9
    · rw [if_pos c, if_pos ⟨c.1, by omega⟩]; rfl
    · rw [if_neg c, if_neg (by omega)]

example : fieldCodes 9 = [12, 13, 14, 24, 25, 26, 27, 28, 29] ++ (List.range 10).map (36 + ·) ++ (List.range 9).map (48 + ·) ++
    (List.range 9).map (60 + ·) ++ (List.range 9).map (72 + ·) ++ (List.range 9).map (84 + ·) ++ (List.range 9).map (96 + ·) ++
    (List.range 8).map (108 + ·) ++ (List.range 7).map (120 + ·) := by decide +kernel

/-! ## C16 -/

/-- With the adjacent member supplying the value of `log2Ml[57]`, the decoder performs no undefined operation at all. -/
theorem C16_decode_safe (d : Nat → Int) (hd : Bits 88 d) (cur prev : Parms (IEEE m)) (t : Tls (IEEE m))
    (h0 : 0 ≤ prev.L) (h1 : prev.L ≤ 56) : ∃ r, decodeImbe4400 true d cur prev t = .ok r := by
  by_cases h : 207 < imbeFund d
  · exact ⟨_, decodeImbe4400_bad hd h true cur prev t⟩
  · rw [decodeImbe4400_good hd (by omega)]
    obtain ⟨r1, r2⟩ := imbeLTab_range (imbeFund d) (by omega)
    obtain ⟨p, hp⟩ : ∃ p : Nat, prev.L = (p : Int) := ⟨prev.L.toNat, by omega⟩
    obtain ⟨n, hn⟩ : ∃ n, imbeLTab (imbeFund d) = n + 9 := ⟨imbeLTab (imbeFund d) - 9, by omega⟩
    rw [hn]
    exact (imbeDecodeBody_ok (lax := true) (by omega) hd hp (by omega) (.inl rfl)).elim

/-- As written, the decoder is undefined exactly when the previous frame has 56 harmonics and the current one has a valid
fundamental with a number of harmonics other than 23 and 46: it then reads the element after the end of `log2Ml`. -/
theorem C16_decode_exception (d : Nat → Int) (hd : Bits 88 d) (cur prev : Parms (IEEE m)) (t : Tls (IEEE m))
    (h0 : 0 ≤ prev.L) (h1 : prev.L ≤ 56) :
    if prev.L = 56 ∧ imbeFund d ≤ 207 ∧ imbeHarmonics (imbeFund d) ≠ 23 ∧ imbeHarmonics (imbeFund d) ≠ 46
    then decodeImbe4400 false d cur prev t = .error .oobRead
    else ∃ r, decodeImbe4400 false d cur prev t = .ok r ∧ decodeImbe4400 true d cur prev t = .ok r := by
  obtain ⟨p, hp⟩ : ∃ p : Nat, prev.L = (p : Int) := ⟨prev.L.toNat, by omega⟩
  rw [imbeHarmonics_eq]
  by_cases h : 207 < imbeFund d
  · rw [if_neg (by omega)]
    exact ⟨_, decodeImbe4400_bad hd h false cur prev t, decodeImbe4400_bad hd h true cur prev t⟩
  · obtain ⟨r1, r2⟩ := imbeLTab_range (imbeFund d) (by omega)
    obtain ⟨n, hn⟩ : ∃ n, imbeLTab (imbeFund d) = n + 9 := ⟨imbeLTab (imbeFund d) - 9, by omega⟩
    have hover := Kl_over (p := p) (L := n + 9) (by omega) (by omega) (by omega)
    by_cases hc : prev.L = 56 ∧ imbeFund d ≤ 207 ∧ ((imbeLTab (imbeFund d) : Nat) : Int) ≠ 23 ∧ ((imbeLTab (imbeFund d) : Nat) : Int) ≠ 46
    · rw [if_pos hc, decodeImbe4400_good hd (by omega), hn]
      rw [hn] at hc
      exact imbeDecodeBody_over (by omega) hd hp (by omega) (hover.mpr ⟨by omega, by omega, by omega⟩)
    · rw [if_neg hc]
      have hno : NoOver false p (n + 9) := by
        right
        have hne : Kl p (n + 9) (n + 9) ≠ 56 := by
          intro e
          obtain ⟨a, b, c⟩ := hover.mp e
          rw [hn] at hc
          exact hc ⟨by omega, by omega, by omega, by omega⟩
        have := (Kl_range (p := p) (L := n + 9) (l := n + 9) (by omega) (by omega) (by omega) (le_refl _)).2
        omega
      have hok : ∃ r, decodeImbe4400 false d cur prev t = .ok r := by
        rw [decodeImbe4400_good hd (by omega), hn]
        exact (imbeDecodeBody_ok (lax := false) (by omega) hd hp (by omega) hno).elim
      obtain ⟨r, hr⟩ := hok
      exact ⟨r, hr, (decodeImbe4400_lax d cur prev t).ok hr⟩

/-- The exception is reached by ordinary frames: after a frame with fundamental 207 (`L = 56`), any frame with
fundamental 0. -/
example (cur prev : Parms (IEEE m)) (t : Tls (IEEE m)) (h : prev.L = 56) :
    decodeImbe4400 false samplePayload cur prev t = .error .oobRead := by
  have h' := C16_decode_exception samplePayload samplePayload_bits cur prev t (by omega) (by omega)
  rw [if_pos] at h'
  · exact h'
  · have e : imbeFund samplePayload = 0 := by decide
    rw [imbeHarmonics_eq, e]
    exact ⟨h, by decide, by decide, by decide⟩

end Verif.Props
