import Verif.Lemmas.UnvoicedBlock
import Verif.Props.VoicedAcc

/-!
# C76: unvoiced synthesis in binary32
-/

namespace Verif.Props
open Verif Verif.Spec Verif.Model Verif.Num Verif.Gen Arith
variable {m : Libm}

/-- **The unvoiced block in binary32** is noise shaped by the unvoiced bands: the gains give each unvoiced band the root mean
square `146.17696 Ml` over its bins up to a ten-thousandth, and rounding adds at most a tenth of the largest amplitude to each
sample. In exact arithmetic this is `C64_spectrum`. -/
theorem C76_block (hcos : CosAcc m) (hsin : SinAcc m) (E : Env (IEEE m)) (hE : Runs E) (P : Plan (IEEE m)) (noise : Arr 256 (IEEE m))
    (cur prev : Parms (IEEE m)) (out : Arr 160 (IEEE m)) (hL : cur.L ≤ 56) (hw : ∃ q, Val cur.w0 q ∧ (q = 0 ∨ 1 / 64 ≤ q) ∧ q ≤ 5 / 8)
    (hn : ∀ i, Bnd (noise i) (2 ^ 16)) (A : ℚ) (hA0 : 0 ≤ A) (hA1 : A ≤ 2 ^ 32) (hA : UnvoicedBnd A cur)
    (r : Arr 160 (IEEE m) × Arr 256 (IEEE m)) (h : unvoiced E P noise cur prev out = .ok r) :
    (∀ i, ∃ q, Val (r.2 i) q) ∧ ShapedNoise (A / 10 + 1 / 2 ^ 80) (valuesOf cur) (windowed noise) (seqOf fun n => number (r.2 n)) :=
  unvoiced_shape hcos hsin hE hL hw hn hA0 hA1 hA r h

/-- **The block that a frame leaves in the parameter set.** Its noise is the noise that the frame takes from the generator. If
there is no memory for the transform, the block stays as it was. -/
theorem C76_frame (hcos : CosAcc m) (hsin : SinAcc m) (E : Env (IEEE m)) (hE : Runs E) (cur prev : Parms (IEEE m)) (t : Tls (IEEE m))
    (hc : OrdinarySet cur) (hL : 0 ≤ cur.L ∧ cur.L ≤ 56) (hpL : prev.L ≤ 56)
    (r : SynthRes (IEEE m)) (h : synthUnmuted E cur prev t = .ok r) :
    ∃ nr, noiseOverlap (Arr.const 256 (fi 0)) cur.noiseSeed cur.noiseOverlap t = .ok nr ∧
      (r.tls.plan = none → r.cur.previousUw = cur.previousUw) ∧
      (r.tls.plan ≠ none → ∀ A : ℚ, 0 ≤ A → A ≤ 2 ^ 32 → UnvoicedBnd A cur → (∀ i, Bnd (r.cur.previousUw i) (148 * A + 1 / 2 ^ 78)) ∧
        ShapedNoise (A / 10 + 1 / 2 ^ 80) (valuesOf cur) (windowed nr.buf) (seqOf fun n => number (r.cur.previousUw n))) :=
  synthUnmuted_block hcos hsin hE hL.2 hpL hL.1 hc.w0 hc.noise r h

/-- **Level of shaped noise.** Up to `d` per sample it is a block whose energy is at most `(147 A)²` if the amplitudes of the
unvoiced bands are at most `A`. -/
theorem C76_level (d : ℝ) (p : Parms ℝ) (x u : ℕ → ℝ) (h : ShapedNoise d p x u) (hw : 0 ≤ p.w0) (hL : p.L ≤ 56) (A : ℝ) (hA0 : 0 ≤ A)
    (hA : (∀ l : Fin 57, 1 ≤ l.val → (l.val : Int) ≤ p.L → p.Vl l = 0 → |p.Ml l| ≤ A) ∨ p.w0 = 0) :
    (∃ v : ℕ → ℝ, (∑ n ∈ Finset.range 256, v n ^ 2 ≤ (147 * A + 1 / 2 ^ 80) ^ 2) ∧ ∀ n, n < 256 → |u n - v n| ≤ d) ∧
    ∀ n, n < 256 → |u n| ≤ 147 * A + d + 1 / 2 ^ 80 :=
  shaped_level h hw hL hA0 hA

/-- A frame is completely described: the samples are, up to the stated error, the clipped sum of the exact contributions of the
voiced harmonics and of the overlap-add of two unvoiced blocks; both blocks are shaped noise. -/
def HeardWithin (E : Env (IEEE m)) (pcm : Arr 160 (IEEE m)) : Prop :=
  ∃ cur prev t r nr, synthUnmuted E cur prev t = .ok r ∧ pcm = r.out ∧ (9 ≤ cur.L ∧ cur.L ≤ 56) ∧ (9 ≤ prev.L ∧ prev.L ≤ 56) ∧
    noiseOverlap (Arr.const 256 (fi 0)) cur.noiseSeed cur.noiseOverlap t = .ok nr ∧
    StoredBlock prev.previousUw ∧ UnvoicedBnd (2 ^ 32) cur ∧
    (r.tls.plan ≠ none → ∀ A : ℚ, 0 ≤ A → A ≤ 2 ^ 32 → UnvoicedBnd A cur →
      ShapedNoise (A / 10 + 1 / 2 ^ 80) (valuesOf cur) (windowed nr.buf) (seqOf fun n => number (r.cur.previousUw n)) ∧
      ((∀ i, Bnd (prev.previousUw i) (148 * A + 1 / 2 ^ 78)) →
        ∃ x : Fin 57 → Fin 160 → ℝ,
          (∀ l : Fin 57, 1 ≤ l.val → (l.val : Int) ≤ max cur.L prev.L →
            ContributionWithin (1 / 2 ^ 20) (1 / 1000) (valuesOf r.cur) (valuesOf r.prev) l (x l)) ∧
          (∀ l : Fin 57, l.val < 1 ∨ max cur.L prev.L < l.val → x l = fun _ => 0) ∧
          ∀ n, ∃ v : ℚ, Val (pcm n) v ∧
            |(v : ℝ) - clipTo (32767 * (95 / 100) / 7) (∑ l, x l n +
                overlapAdd (valuesOf prev).previousUw (valuesOf r.cur).previousUw (n.val : Int))| ≤
              (voicedSum prev.L (valuesOf prev) + voicedSum cur.L (valuesOf cur)) / 140 + A / 200 + 1 / 3900))

theorem heard_of {E : Env (IEEE m)} {pcm : Arr 160 (IEEE m)} (hm : TrigAcc m) (hcos : CosAcc m) (hsin : SinAcc m) (h : Voice E pcm) :
    (∃ buf t r, comfortNoisef (F := IEEE m) buf t = .ok r ∧ pcm = r.1) ∨ HeardWithin E pcm := by
  rcases h.2 with ⟨cur, prev, t, r, h1, h2, h3, h4, h5, h6, h7, h8, h9, h10, h11, h12, h13⟩ | hk
  · obtain ⟨nr, b1, b2, b3⟩ := synthUnmuted_block hcos hsin h13 h6.2 h7.2 (by omega) h3.w0 h3.noise r h1
    refine .inr ⟨cur, prev, t, r, nr, h1, h2, h6, h7, b1, h12 hcos hsin, h11, fun hp A a0 a1 a2 => ⟨(b3 hp A a0 a1 a2).2, fun hb => ?_⟩⟩
    have a0' : (0 : ℝ) ≤ A := by exact_mod_cast a0
    obtain ⟨x, x1, x2, x3⟩ := frame_near hm h3 h4 h5 h6 h7 h8 h1 (U := 148 * A + 1 / 2 ^ 78) (by positivity) (by norm_num at a1 ⊢; linarith)
      fun _ i => ⟨hb i, (b3 hp A a0 a1 a2).1 i⟩
    refine ⟨x, x1, x2, fun n => ?_⟩
    obtain ⟨v, vv, hv⟩ := x3 n
    rw [if_pos hp] at hv
    refine ⟨v, by rw [h2]; exact vv, hv.trans ?_⟩
    push_cast
    norm_num
    linarith
  · exact .inl hk

/-- The samples of a stored block are bounded as `HeardWithin` needs it, by the amplitudes of the frame that made it. -/
theorem C76_stored (u : Arr 256 (IEEE m)) (h : StoredBlock u) :
    (∀ i, Val (u i) 0) ∨ ∃ (cur : Parms (IEEE m)) (x : ℕ → ℝ), UnvoicedBnd (2 ^ 32) cur ∧ ∀ A : ℚ, 0 ≤ A → A ≤ 2 ^ 32 → UnvoicedBnd A cur →
      (∀ i, Bnd (u i) (148 * A + 1 / 2 ^ 78)) ∧ ShapedNoise (A / 10 + 1 / 2 ^ 80) (valuesOf cur) x (seqOf fun n => number (u n)) := by
  rcases h with h | ⟨_, cur, _, _, _, nr, _, _, _, h1, h2⟩
  · exact .inl h
  · exact .inr ⟨cur, windowed nr.buf, h1, h2⟩

/-- **Every block of samples that a program delivers**, under the hypotheses of `C65_finite_partial`: comfort noise, a tone, or a
frame that `HeardWithin` describes. -/
theorem C76_history (hm : TrigAcc m) (hcos : CosAcc m) (hsin : SinAcc m) (he : Exp2Acc m) (E : Env (IEEE m)) (hE : Runs E)
    (as : List (Api (IEEE m))) (hv : ∀ a ∈ as, a.Valid) (h20 : ∀ a ∈ as, a.ErrsLe 20) (s : St (IEEE m)) (hs : Fresh s)
    (ha : ∀ bs, bs <+: as → ∀ s', runApi E bs s = .ok s' → AmpsOk s'.prev)
    (l : List (Option (Arr 160 (IEEE m) × List Char))) (s' : St (IEEE m)) (h : deliveries (Api.call E) as s = .ok (l, s')) :
    ∀ b ∈ l, ∀ pcm str, b = some (pcm, str) →
      (∃ buf t r, comfortNoisef (F := IEEE m) buf t = .ok r ∧ pcm = r.1) ∨
      (∃ buf d cur r, synthesizeTonef (F := IEEE m) buf d cur = .ok r ∧ pcm = r.1) ∨ HeardWithin E pcm := by
  intro b hb pcm str e
  rcases runApi_fin hm he hE hv h20 (fresh_ok hs).1 (fresh_fin hs) ha h b hb _ e with hk | hk
  · rcases heard_of hm hcos hsin hk with k | k
    · exact .inl k
    · exact .inr (.inr k)
  · exact .inr (.inl hk.2)

/-- **IMBE: as long as the exact log amplitudes of the received frames stay moderate**, each frame is comfort noise or as
`HeardWithin` describes. -/
theorem C76_imbe (hm : LibmAcc m) (htr : TrigAcc m) (hcos : CosAcc m) (hsin : SinAcc m) (E : Env (IEEE m)) (hE : Runs E) (s0 s s' : St (IEEE m))
    (ht : s0.tls = Tls.start) (hi : initMbeState s0 = .ok s) (ops : List (ImbeOp (IEEE m)))
    (hd : ∀ op ∈ ops, Bits 88 op.d ∧ op.errs2 ≤ 20) (p : Parms ℝ) (hx : ∀ bs, bs <+: ops → Moderate (track p bs))
    (bs : List (ImbeOp (IEEE m))) (op : ImbeOp (IEEE m)) (hb : bs ++ [op] <+: ops) (h : runOps (ImbeOp.run E) bs s = .ok s')
    (o : Out (IEEE m)) (ho : op.run E s' = .ok o) :
    (∃ buf t r, comfortNoisef (F := IEEE m) buf t = .ok r ∧ o.pcm = r.1) ∨ HeardWithin E o.pcm :=
  heard_of htr hcos hsin (imbe_voice hm htr E hE s0 s s' ht hi ops hd p hx bs op hb h o ho)

/-- **AMBE: as long as the exact amplitudes of the received frames stay moderate**, each frame is comfort noise, a tone or as
`HeardWithin` describes. -/
theorem C76_ambe (hm : LibmAcc m) (hl : Log2Acc m) (htr : TrigAcc m) (hcos : CosAcc m) (hsin : SinAcc m) (E : Env (IEEE m)) (hE : Runs E)
    (s0 s s' : St (IEEE m)) (ht : s0.tls = Tls.start) (hi : initAmbeState s0 = .ok s ∨ initMbeState s0 = .ok s) (ops : List (AmbeOp (IEEE m)))
    (hd : ∀ op ∈ ops, Bits 49 op.payload ∧ op.errs2 ≤ 20) (p : Parms ℝ) (hx : ∀ bs, bs <+: ops → ModerateA (ambeTrack p bs))
    (bs : List (AmbeOp (IEEE m))) (op : AmbeOp (IEEE m)) (hb : bs ++ [op] <+: ops) (h : runOps (AmbeOp.run E) bs s = .ok s')
    (o : Out (IEEE m)) (ho : op.run E s' = .ok o) :
    (∃ buf t r, comfortNoisef (F := IEEE m) buf t = .ok r ∧ o.pcm = r.1) ∨
    (∃ buf d cur r, synthesizeTonef (F := IEEE m) buf d cur = .ok r ∧ o.pcm = r.1) ∨ HeardWithin E o.pcm := by
  rcases ambe_made hm hl htr E hE s0 s s' ht hi ops hd p hx bs op hb h o ho with hk | hk
  · rcases heard_of htr hcos hsin hk with k | k
    · exact .inl k
    · exact .inr (.inr k)
  · exact .inr (.inl hk.2)

/-! ## A concrete case -/

/-- At 159 Hz the first band has the bins 3 to 7. -/
theorem limits_sample {e : ℕ → ℕ} (h : LimitsWithin (1 / 2 ^ 20) (1 / 8) e) : e 1 = 3 ∧ e 2 = 8 := by
  have p1 := Real.pi_gt_d6
  have p2 := Real.pi_lt_d6
  have W1 : 256 * (1 / 8) / (2 * Real.pi) ≤ (5093 / 1000 : ℝ) := by
    rw [div_le_iff₀ (by positivity)]
    norm_num at p1 ⊢
    linarith
  have W2 : (5092 / 1000 : ℝ) ≤ 256 * (1 / 8) / (2 * Real.pi) := by
    rw [le_div_iff₀ (by positivity)]
    norm_num at p2 ⊢
    linarith
  obtain ⟨y, hy, ey⟩ := h 1 le_rfl (by decide)
  obtain ⟨z, hz, ez⟩ := h 2 (by decide) (by decide)
  generalize 256 * (1 / 8) / (2 * Real.pi) = W at *
  rw [abs_le] at hy hz
  norm_num at hy hz W1 W2
  have cy : ⌈y⌉ = 3 := by
    rw [Int.ceil_eq_iff]
    norm_num
    constructor <;> linarith
  have cz : ⌈z⌉ = 8 := by
    rw [Int.ceil_eq_iff]
    norm_num
    constructor <;> linarith
  rw [cy] at ey
  rw [cz] at ez
  omega

/-- 39 unvoiced bands of 159 Hz with amplitude 1. -/
def unvoicedSampleF : Parms (IEEE m) := { imbeInit 39 with w0 := lit 1 8, Vl := Arr.const 57 0 }

/-- A frame of this sample meets the hypotheses. The gain of the bins 3 to 7 is one number `γ`. -/
example (hm : TrigAcc m) (hcos : CosAcc m) (hsin : SinAcc m) : ∃ (E : Env (IEEE m)) (r : SynthRes (IEEE m)) (x : ℕ → ℝ), Runs E ∧
    synthUnmuted E unvoicedSampleF unvoicedSampleF Tls.start = .ok r ∧
    ShapedNoise (1 / 10 + 1 / 2 ^ 80) (valuesOf (unvoicedSampleF (m := m))) x (seqOf fun n => number (r.cur.previousUw n)) ∧
    ∃ (X : ℕ → ℂ) (γ : ℝ) (v : ℕ → ℝ), (∀ k, 3 ≤ k → k < 8 → dft 256 v k = γ * X k) ∧ (∀ k, k ≤ 128 → ‖X k - dft 256 x k‖ ≤ 512) ∧
      (∀ n, n < 256 → |number (r.cur.previousUw ⟨n % 256, Nat.mod_lt _ (by decide)⟩) - v n| ≤ 1 / 10 + 1 / 2 ^ 80) ∧
      ((γ = 0 ∧ powerOf X 3 8 ≤ 2 / 10 ^ 10) ∨ |γ * Real.sqrt (powerOf X 3 8 / 5) - 146.17696| ≤ 146.17696 / 10000 + 1 / 2 ^ 80) := by
  obtain ⟨E, hE, ha, _⟩ := (C61_env (F := IEEE m) true true).1
  have one : Val (lit 1 1 : IEEE m) 1 := val_of_rng (show rngB (lit 1 1 : IEEE libm0) 1 1 = true by decide +kernel)
  have w8 : Val (lit 1 8 : IEEE m) (1 / 8) := val_of_rng (show rngB (lit 1 8 : IEEE libm0) (1 / 8) (1 / 8) = true by decide +kernel)
  have f0 : Bnd (fi 0 : IEEE m) 0 := ⟨0, ⟨false, rfl⟩, by norm_num⟩
  have hM : OrdinarySet (unvoicedSampleF (m := m)) := ⟨⟨1 / 8, w8, .inr (by norm_num), by norm_num⟩, fun l _ _ _ => ⟨1, one, by norm_num⟩,
    fun i => f0.mono (by norm_num)⟩
  have hL : (unvoicedSampleF (m := m)).L = 39 := rfl
  have hseed : SeedConv (unvoicedSampleF (m := m)).noiseSeed := .inl
    (show lt (neg (lit 1 1) : IEEE libm0) (lit 0 1) = true by decide +kernel)
  obtain ⟨r, h, _⟩ := (synthUnmuted_ok (U := fun _ => False) E (unvoicedSampleF (m := m)) (unvoicedSampleF (m := m)) Tls.start (by rw [hL]; decide)
      (by rw [hL]; decide) (.inl hseed) (.inl (edgeConv ⟨1 / 8, w8, by norm_num [abs_le]⟩ (by rw [hL]; decide)))).toOk
  obtain ⟨nr, _, _, h2⟩ := C76_frame hcos hsin E hE _ _ _ hM (by rw [hL]; decide) (by rw [hL]; decide) r h
  have hp : r.tls.plan ≠ none := by
    have z0 : Bnd (lit 0 1 : IEEE m) 0 := ⟨0, zero_val, by norm_num⟩
    have hP : PhasesOk (unvoicedSampleF (m := m)) := fun l _ => ⟨f0.mono (by positivity), z0.mono (by positivity)⟩
    exact (synthUnmuted_near hm hM hM hP (by rw [hL]; decide) (by rw [hL]; decide) (CacheOk.planOk (CacheOk.start E)) r h).2.2.2.2.1 ha
  obtain ⟨_, k⟩ := h2 hp 1 (by norm_num) (by norm_num) (.inl fun l _ _ _ => ⟨1, one, by norm_num⟩)
  rw [Rat.cast_one] at k
  refine ⟨E, r, windowed nr.buf, hE, h, k, ?_⟩
  obtain ⟨e, X, g, v, k1, k2, k3, k4, k5, k6⟩ := k
  have ew : (valuesOf (unvoicedSampleF (m := m))).w0 = 1 / 8 := by
    show number (lit 1 8 : IEEE m) = 1 / 8
    rw [Val.number w8]
    norm_num
  have eM : (valuesOf (unvoicedSampleF (m := m))).Ml 1 = 1 := by
    show number (lit 1 1 : IEEE m) = 1
    rw [Val.number one]
    norm_num
  rw [ew] at k1
  obtain ⟨e1, e2⟩ := limits_sample k1
  obtain ⟨γ, g1, g2⟩ := k5 1 le_rfl (by show (1 : Int) ≤ 39; decide) rfl (by show e 1 < e 2; omega)
  have g1 : ∀ k, e 1 ≤ k → k < e 2 → g k = γ := g1
  have g2 : (γ = 0 ∧ powerOf X (e 1) (e 2) ≤ 2 / 10 ^ 10) ∨ (1 / (2 * 10 ^ 10) ≤ powerOf X (e 1) (e 2) ∧
    |γ * Real.sqrt (powerOf X (e 1) (e 2) / ((e 2 : ℝ) - e 1)) - 146.17696 * (valuesOf (unvoicedSampleF (m := m))).Ml 1| ≤
              |146.17696 * (valuesOf (unvoicedSampleF (m := m))).Ml 1| / 10000 + 1 / 2 ^ 80) := g2
  rw [e1, e2, eM, mul_one, abs_of_pos (show (0 : ℝ) < 146.17696 by norm_num)] at g2
  rw [e1, e2] at g1
  refine ⟨X, γ, v, fun k a b => ?_, k2, fun n hn => ?_, ?_⟩
  · rw [k3 k (by omega), g1 k a b]
  · have := k6 n hn
    rw [seqOf, dif_pos hn] at this
    have e : (⟨n % 256, Nat.mod_lt _ (by decide)⟩ : Fin 256) = ⟨n, hn⟩ := Fin.ext (Nat.mod_eq_of_lt hn)
    rw [e]
    exact this
  · rcases g2 with g2 | ⟨_, g2⟩
    · exact .inl g2
    · right
      norm_num at g2 ⊢
      exact g2

end Verif.Props
