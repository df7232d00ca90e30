import Verif.Lemmas.VoicedOut
import Verif.Lemmas.Simd

/-!
# Voiced synthesis of the vector build in binary32
-/

namespace Verif.Model
open Verif Verif.Gen Verif.Spec Verif.Num Arith
variable {m : Libm}

/-- The blocks of four are the 160 steps of an oscillator with the products in another order. -/
theorem windowedOscSimd_with {off : Nat} (hoff : off ≤ 160) (amp sd cd s0 c0 : IEEE m) (out : Arr 160 (IEEE m)) :
    windowedOscSimd off amp sd cd s0 c0 out = oscWith (fun w a c => (c *ᶠ w) *ᶠ (lit 2 1 *ᶠ a)) off amp sd cd s0 c0 out := by
  have hlen : Ws.length = 320 + (Ws.length - 320) := by decide +kernel
  have ht : ∀ i, i < 320 → ∃ v, tab Ws i = .ok v := fun i hi => by
    unfold tab
    rw [List.getElem?_eq_getElem (by omega)]
    exact ⟨_, rfl⟩
  unfold windowedOscSimd oscWith
  rw [loop_four' (show 160 = 4 * 40 by rfl)]
  refine congrArg (fun x : Exec (Arr 160 (IEEE m) × IEEE m × IEEE m) => x >>= fun r => Except.ok r.1) ?_
  refine loop_congr fun k hk => ?_
  funext s
  obtain ⟨o, c, sn⟩ := s
  unfold voicedBlock4 four
  obtain ⟨w0, h0⟩ := ht (4 * k + off) (by omega)
  obtain ⟨w1, h1⟩ := ht (4 * k + off + 1) (by omega)
  obtain ⟨w2, h2⟩ := ht (4 * k + off + 2) (by omega)
  obtain ⟨w3, h3⟩ := ht (4 * k + off + 3) (by omega)
  dsimp only
  rw [h0, ok_bind, h1, ok_bind, h2, ok_bind, h3, ok_bind, rd4_nat (by omega), ok_bind, wr4_nat (by omega), ok_bind]
  rw [show 4 * k + 1 + off = 4 * k + off + 1 by ring, show 4 * k + 2 + off = 4 * k + off + 2 by ring,
    show 4 * k + 3 + off = 4 * k + off + 3 by ring]
  rw [ok_bind, Arr.rd_nat (by omega), ok_bind, Arr.wr_nat (by omega), ok_bind, ok_bind, h1, ok_bind,
    Arr.rd_nat (by omega), ok_bind, Arr.wr_nat (by omega), ok_bind, ok_bind, h2, ok_bind,
    Arr.rd_nat (by omega), ok_bind, Arr.wr_nat (by omega), ok_bind, ok_bind, h3, ok_bind,
    Arr.rd_nat (by omega), ok_bind, Arr.wr_nat (by omega), ok_bind]
  dsimp only
  rw [Arr.set_ne (j := ⟨4 * k + 1, _⟩) (by dsimp only; omega), Arr.set_ne (j := ⟨4 * k + 2, _⟩) (by dsimp only; omega),
    Arr.set_ne (j := ⟨4 * k + 2, _⟩) (by dsimp only; omega), Arr.set_ne (j := ⟨4 * k + 3, _⟩) (by dsimp only; omega),
    Arr.set_ne (j := ⟨4 * k + 3, _⟩) (by dsimp only; omega), Arr.set_ne (j := ⟨4 * k + 3, _⟩) (by dsimp only; omega)]
  rfl

/-- One sample, with the products of the vector build. -/
theorem windowed_term_simd {w amp c : IEEE m} {τ A a C : ℝ} (hw : Near (1 / 2 ^ 24) 1 w τ) (ha : Near 0 a amp A) (hc : Near (31 / 10000) 1 c C)
    (ha0 : 0 ≤ a) (ha1 : a ≤ 2 ^ 33) : TermNear a ((c *ᶠ w) *ᶠ (lit 2 1 *ᶠ amp) : IEEE m) (2 * τ * A * C) := by
  have h2 : Near 0 2 (lit 2 1 : IEEE m) (lit 2 1 : ℝ) := by
    rw [two_r]
    exact ⟨2, two_val, by norm_num, by norm_num⟩
  have t1 := Near.mul (e := 32 / 10000) (B := 1) hc hw (by norm_num) (by norm_num) (by norm_num)
  have t2 := Near.mul (e := a / 2 ^ 22 + 1 / 2 ^ 145) (B := 2 * a) h2 ha (by linarith) (by norm_num; linarith) (by norm_num at *; linarith)
  have t3 := Near.mul (e := a / 150 + 1 / 2 ^ 101) (B := 2 * a) t1 t2 (by linarith) (by norm_num; linarith) (by norm_num at *; linarith)
  rw [RealArith.mul_r, RealArith.mul_r, RealArith.mul_r, two_r, show C * τ * (2 * A) = 2 * τ * A * C by ring] at t3
  exact t3

theorem oscSimd_near (hm : TrigAcc m) : OscNear (windowedOscSimd (F := IEEE m)) := by
  intro off k hoff amp x ph out X W T a A φ ω qx qp
  rw [windowedOscSimd_with hoff]
  exact oscWith_near hm windowed_term_simd hoff

theorem voicedBandSimd_with : (voicedBandSimd (F := IEEE m)) = voicedBandWith windowedOscSimd := rfl

theorem synthUnmutedSimd_with (isa : Isa) (E : Env (IEEE m)) (cur prev : Parms (IEEE m)) (t : Tls (IEEE m)) :
    synthUnmutedSimd isa E cur prev t = synthWith windowedOscSimd (unvoicedSimd isa E) E cur prev t := by
  unfold synthUnmutedSimd synthWith
  rw [voicedBandSimd_with]
  refine bind_congr fun nr => bind_congr fun nuv => bind_congr fun e => bind_congr fun q => bind_congr fun out => bind_congr fun g => ?_
  obtain ⟨plan, t1⟩ := g
  cases plan
  · rfl
  · rfl

theorem overlaps_simd (isa : Isa) (E : Env (IEEE m)) : Overlaps (unvoicedSimd isa E) := by
  intro noise cur prev out r h
  unfold unvoicedSimd at h
  obtain ⟨a1, e1, h⟩ := bind_ok h
  obtain ⟨a2, e2, h⟩ := bind_ok h
  obtain ⟨a3, e3, h⟩ := bind_ok h
  obtain ⟨a4, e4, h⟩ := bind_ok h
  obtain ⟨a5, e5, h⟩ := bind_ok h
  obtain ⟨a6, e6, h⟩ := bind_ok h
  rw [← ok_inj h]
  rw [wolaSimd_eq denomTab] at e6
  exact e6

end Verif.Model
