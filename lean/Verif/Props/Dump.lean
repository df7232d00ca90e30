import Verif.Lemmas.Dump

/-!
# C57: the printing functions
-/

namespace Verif.Props
open Verif Verif.Spec Verif.Model

/-- Whatever the contents of the arrays, the printing functions stay inside them. -/
theorem C57_defined (d : Nat → Int) (fr : Frame) :
    (∃ t, dumpImbe4400Data d = .ok t) ∧ (∃ t, dumpImbe7200Data d = .ok t) ∧ (∃ t, dumpImbe7100Data d = .ok t) ∧
    (∃ t, dumpAmbeData d = .ok t) ∧ (∃ t, dumpImbe7200Frame fr = .ok t) ∧ (∃ t, dumpImbe7100Frame fr = .ok t) ∧
    ∃ t, dumpAmbeFrame fr = .ok t := by
  refine ⟨⟨_, printData_eq _ _ _ _⟩, ⟨_, printData_eq _ _ _ _⟩, ⟨_, printData_eq _ _ _ _⟩, ?_,
    ⟨_, dumpImbe7200Frame_eq fr⟩, ⟨_, dumpImbe7100Frame_eq fr⟩, ⟨_, dumpAmbeFrame_eq fr⟩⟩
  unfold dumpAmbeData
  rw [printData_eq, ok_bind]
  exact ⟨_, rfl⟩

theorem data_text {n : Nat} {d : Nat → Int} (h : Bits n d) (seps : List Nat) (o : List Char) :
    printData n seps d o = .ok (o ++ dataText n seps fun i => [bitChar (d i)]) := by
  rw [printData_eq, dataText_congr fun i hi => intText_bit (h i hi)]

/-- Payloads are printed bit by bit in transmission order, IMBE payloads with blanks between the fields. -/
theorem C57_data (d : Nat → Int) (h : Bits 88 d) :
    dumpImbe4400Data d = .ok (field d 0 88) ∧ dumpImbe7200Data d = .ok (imbe7200DataText d) ∧
    dumpImbe7100Data d = .ok (imbe7100DataText d) := by
  refine ⟨(data_text h _ _).trans ?_, (data_text h _ _).trans rfl, (data_text h _ _).trans rfl⟩
  rfl

theorem C57_ambe_data (d : Nat → Int) (h : Bits 49 d) : dumpAmbeData d = .ok (field d 0 49 ++ [' ']) := by
  unfold dumpAmbeData
  rw [data_text h, ok_bind]
  rfl

/-- Contents other than bits, negative ones included, are printed as decimal numbers. -/
theorem C57_decimal (d : Nat → Int) :
    dumpImbe4400Data d = .ok ((List.range 88).flatMap fun i => (toString (d i)).toList) ∧
    dumpAmbeData d = .ok ((List.range 49).flatMap (fun i => (toString (d i)).toList) ++ [' ']) := by
  have e : ∀ v : Int, intText v = (toString v).toList := by
    intro v
    unfold intText
    cases v with
    | ofNat n =>
      rw [if_neg (by simp)]
      exact Nat.toList_repr.symm
    | negSucc n =>
      rw [if_pos (Int.negSucc_lt_zero n)]
      show _ = ("-" ++ (n + 1).repr).toList
      rw [String.toList_append, Nat.toList_repr]
      rfl
  constructor
  · refine (printData_eq _ _ _ _).trans ?_
    simp [dataText, e]
  · unfold dumpAmbeData
    rw [printData_eq, ok_bind]
    simp [dataText, e]

example : (toString (-12 : Int)).toList = ['-', '1', '2'] := by decide +kernel

/-- Frames are printed codeword by codeword, most significant bit first. -/
theorem C57_frame (fr : Frame) :
    (RowBits rows7200 fr → dumpImbe7200Frame fr = .ok (imbe7200FrameText fr)) ∧
    (RowBits rows7100 fr → dumpImbe7100Frame fr = .ok (imbe7100FrameText fr)) ∧
    (RowBits rowsAmbe fr → dumpAmbeFrame fr = .ok (ambeFrameText fr)) := by
  refine ⟨fun h => ?_, fun h => ?_, fun h => ?_⟩
  · rw [dumpImbe7200Frame_eq, text7200_bits h]
    rfl
  · rw [dumpImbe7100Frame_eq, text7100_bits h]
    rfl
  · rw [dumpAmbeFrame_eq, textAmbe_bits h]
    rfl

/-- Payloads that print alike are equal. -/
theorem C57_data_injective (d d' : Nat → Int) :
    (Bits 88 d → Bits 88 d' → dumpImbe4400Data d = dumpImbe4400Data d' → ∀ k < 88, d k = d' k) ∧
    (Bits 88 d → Bits 88 d' → dumpImbe7200Data d = dumpImbe7200Data d' → ∀ k < 88, d k = d' k) ∧
    (Bits 88 d → Bits 88 d' → dumpImbe7100Data d = dumpImbe7100Data d' → ∀ k < 88, d k = d' k) ∧
    (Bits 49 d → Bits 49 d' → dumpAmbeData d = dumpAmbeData d' → ∀ k < 49, d k = d' k) := by
  refine ⟨fun h h' e => ?_, fun h h' e => ?_, fun h h' e => ?_, fun h h' e => ?_⟩
  · unfold dumpImbe4400Data at e
    rw [data_text h, data_text h'] at e
    exact dataText_inj h h' (Except.ok.inj e)
  · unfold dumpImbe7200Data at e
    rw [data_text h, data_text h'] at e
    exact dataText_inj h h' (Except.ok.inj e)
  · unfold dumpImbe7100Data at e
    rw [data_text h, data_text h'] at e
    exact dataText_inj h h' (Except.ok.inj e)
  · unfold dumpAmbeData at e
    rw [data_text h, data_text h', ok_bind, ok_bind] at e
    exact dataText_inj h h' (List.append_cancel_right (Except.ok.inj e))

/-- Frames that print alike agree in every bit of every codeword. -/
theorem C57_frame_injective (fr fr' : Frame) :
    (RowBits rows7200 fr → RowBits rows7200 fr' → dumpImbe7200Frame fr = dumpImbe7200Frame fr' → SameRows rows7200 fr fr') ∧
    (RowBits rows7100 fr → RowBits rows7100 fr' → dumpImbe7100Frame fr = dumpImbe7100Frame fr' → SameRows rows7100 fr fr') ∧
    (RowBits rowsAmbe fr → RowBits rowsAmbe fr' → dumpAmbeFrame fr = dumpAmbeFrame fr' → SameRows rowsAmbe fr fr') := by
  refine ⟨fun h h' e => ?_, fun h h' e => ?_, fun h h' e => ?_⟩
  · rw [dumpImbe7200Frame_eq, dumpImbe7200Frame_eq, text7200_bits h, text7200_bits h'] at e
    obtain ⟨e0, e⟩ := List.append_inj (Except.ok.inj e) (rowText_length _ _ _ _)
    obtain ⟨e1, e⟩ := List.append_inj (List.append_cancel_left e) (rowText_length _ _ _ _)
    obtain ⟨e2, e⟩ := List.append_inj (List.append_cancel_left e) (rowText_length _ _ _ _)
    obtain ⟨e3, e⟩ := List.append_inj (List.append_cancel_left e) (rowText_length _ _ _ _)
    obtain ⟨e4, e⟩ := List.append_inj (List.append_cancel_left e) (rowText_length _ _ _ _)
    obtain ⟨e5, e⟩ := List.append_inj (List.append_cancel_left e) (rowText_length _ _ _ _)
    obtain ⟨e6, e⟩ := List.append_inj (List.append_cancel_left e) (rowText_length _ _ _ _)
    have e7 := List.append_cancel_left e
    intro i hi
    have hb := h i hi
    have hb' := h' i hi
    rcases i with _ | _ | _ | _ | _ | _ | _ | _ | i
    · exact rowText_inj hb hb' e0
    · exact rowText_inj hb hb' e1
    · exact rowText_inj hb hb' e2
    · exact rowText_inj hb hb' e3
    · exact rowText_inj hb hb' e4
    · exact rowText_inj hb hb' e5
    · exact rowText_inj hb hb' e6
    · exact rowText_inj hb hb' e7
    · exact absurd hi (by simp [rows7200])
  · rw [dumpImbe7100Frame_eq, dumpImbe7100Frame_eq, text7100_bits h, text7100_bits h'] at e
    obtain ⟨e0, e⟩ := List.append_inj (Except.ok.inj e) (rowText_length _ _ _ _)
    obtain ⟨e1, e⟩ := List.append_inj (List.append_cancel_left e) (rowText_length _ _ _ _)
    obtain ⟨e2, e⟩ := List.append_inj (List.append_cancel_left e) (rowText_length _ _ _ _)
    obtain ⟨e3, e⟩ := List.append_inj (List.append_cancel_left e) (rowText_length _ _ _ _)
    obtain ⟨e4, e⟩ := List.append_inj (List.append_cancel_left e) (rowText_length _ _ _ _)
    obtain ⟨e5, e⟩ := List.append_inj (List.append_cancel_left e) (rowText_length _ _ _ _)
    have e6 := List.append_cancel_left e
    intro i hi
    have hb := h i hi
    have hb' := h' i hi
    rcases i with _ | _ | _ | _ | _ | _ | _ | i
    · exact rowText_inj hb hb' e0
    · exact rowText_inj hb hb' e1
    · exact rowText_inj hb hb' e2
    · exact rowText_inj hb hb' e3
    · exact rowText_inj hb hb' e4
    · exact rowText_inj hb hb' e5
    · exact rowText_inj hb hb' e6
    · exact absurd hi (by simp [rows7100])
  · rw [dumpAmbeFrame_eq, dumpAmbeFrame_eq, textAmbe_bits h, textAmbe_bits h'] at e
    obtain ⟨e0, e⟩ := List.append_inj (List.append_cancel_left (Except.ok.inj e)) (rowText_length _ _ _ _)
    obtain ⟨e1, e⟩ := List.append_inj (List.append_cancel_left (List.append_cancel_left e)) (rowText_length _ _ _ _)
    obtain ⟨e2, e⟩ := List.append_inj (List.append_cancel_left (List.append_cancel_left e)) (rowText_length _ _ _ _)
    obtain ⟨e3, e⟩ := List.append_inj (List.append_cancel_left (List.append_cancel_left e)) (rowText_length _ _ _ _)
    intro i hi
    have hb := h i hi
    have hb' := h' i hi
    rcases i with _ | _ | _ | _ | i
    · exact rowText_inj hb hb' e0
    · exact rowText_inj hb hb' e1
    · exact rowText_inj hb hb' e2
    · exact rowText_inj hb hb' e3
    · exact absurd hi (by simp [rowsAmbe])

/-- The frame of zeros, and a payload with its text. -/
example : RowBits rows7200 (fun _ _ => 0) ∧ RowBits rows7100 (fun _ _ => 0) ∧ RowBits rowsAmbe (fun _ _ => 0) ∧
    dumpAmbeData (fun k => if k = 1 then 1 else 0) =
      .ok "0100000000000000000000000000000000000000000000000 ".toList :=
  ⟨fun _ _ _ _ => .inl rfl, fun _ _ _ _ => .inl rfl, fun _ _ _ _ => .inl rfl, by decide +kernel⟩

end Verif.Props
