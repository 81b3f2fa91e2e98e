import Verif.CApi.Safe

/-! # Every call of the C API is safe on valid arguments -/

namespace CApi

open Rust (Cursor Std Out DecodingError)
open Spec

variable {α β : Type}

theorem afterCheck {T F : List Ptr} {m : Mem} (hm : m.Ok) {st : Ptr} (h : StatusAt m st) {f : Unit → C α}
    (hf : SafeAt T F (f ()) m) : SafeAt T F (check_not_null st >>= f) m := by
  obtain ⟨v, m', h1, h2⟩ := hf
  exact ⟨v, m', by rw [bind_ret (check_safe (T := []) hm h).1]; exact h1, h2⟩

theorem setNull_safe {T : List Ptr} {m : Mem} (hm : m.Ok) {st : Ptr} (h : StatusAt m st) (h1 : st ∈ T) (s : Status) (a : α) :
    SafeAt T [] (do setStatus st s; return a : C α) m :=
  (setStatus_safe hm h h1 _).bind fun _ _ _ e1 => SafeAt.pure e1.ok _

theorem encoder_buffer_safe {m : Mem} (hm : m.Ok) {st e p : Ptr} {n : BitVec 32} (h : StatusAt m st)
    (he : EncoderAt m e) (hp : BytesAt m p n.toNat) : SafeAt [st, p] [] (encoder_buffer st e p n) m := by
  simp only [encoder_buffer]
  refine afterCheck hm h ?_
  by_cases h0 : e = 0 ∨ p = 0
  · simp only [if_pos h0]; exact setNull_safe hm h (by simp) _ _
  · simp only [if_neg h0]
    obtain ⟨c, hc⟩ := he.resolve_left (fun hx => h0 (.inl hx))
    have hp0 : p ≠ 0 := fun hx => h0 (.inr hx)
    refine SafeAt.bind ⟨_, _, encoderCursor_ok hc, .refl hm⟩ fun c' m1 hm1 _ => ?_
    rw [encoderCursor_ok hc] at hm1; cases hm1
    by_cases hl : n < BitVec.ofNat 32 c.vec.length
    · simp only [if_pos hl]; exact setNull_safe hm h (by simp) _ _
    · simp only [if_neg hl]
      obtain ⟨bs, hbs, hlen, hsafe⟩ := rawSlice_safe (T := [st, p]) hm hp hp0
      refine hsafe.bind fun bs' m1 hm1 _ => ?_
      rw [hbs] at hm1; cases hm1
      by_cases hn : min bs.length c.vec.length ≠ 0
      · simp only [if_pos hn]
        obtain ⟨d, hd, hdn⟩ : ∃ d, m.obj p = some (.block d) ∧ n.toNat ≤ d.length := by
          rcases hp with hx | hx | hx
          · exact absurd hx hp0
          · exfalso; apply hn; rw [hlen, hx]; simp
          · exact hx
        refine SafeAt.bind ⟨_, _, load_some hd, .refl hm⟩ fun o m1 hm1 _ => ?_
        rw [load_some hd] at hm1; cases hm1
        refine SafeAt.bind ⟨_, _, store_some hd _, .set hm hd ?_ (by simp)⟩ fun _ m1 _ e1 =>
          setStatus_safe (T := [st, p]) e1.ok (h.evolve hm e1 List.not_mem_nil) (by simp) _
        simp only [Obj.type, List.length_append, List.length_take, List.length_drop, Ty.block.injEq]
        omega
      · simp only [if_neg hn]
        exact setStatus_safe (T := [st, p]) hm h (by simp) _

theorem encode_bytes_safe {m : Mem} (hm : m.Ok) {st e p : Ptr} {n : BitVec 32} (h : StatusAt m st)
    (he : EncoderAt m e) (hp : BytesAt m p n.toNat) : SafeAt [st, e] [] (encode_bytes st e p n) m := by
  simp only [encode_bytes]
  refine afterCheck hm h ?_
  by_cases h0 : e = 0 ∨ p = 0
  · simp only [if_pos h0]; exact setNull_safe hm h (by simp) _ _
  · simp only [if_neg h0]
    obtain ⟨c, hc⟩ := he.resolve_left (fun hx => h0 (.inl hx))
    have hp0 : p ≠ 0 := fun hx => h0 (.inr hx)
    obtain ⟨bs, hbs, hlen, hsafe⟩ := rawSlice_safe (T := [st, e]) hm hp hp0
    refine hsafe.bind fun bs' m1 hm1 _ => ?_
    rw [hbs] at hm1; cases hm1
    exact encodeCall_safe hm h hc (by simp) (by simp)
      (total_bind (write_total _) (total_bind (encode_u32_total _) (write_all_total _)))

theorem encode_string_safe {m : Mem} (hm : m.Ok) {st e p : Ptr} (h : StatusAt m st)
    (he : EncoderAt m e) (hp : StringAt m p) : SafeAt [st, e] [] (encode_string st e p) m := by
  simp only [encode_string]
  refine afterCheck hm h ?_
  by_cases h0 : e = 0
  · simp only [if_pos h0]; exact setNull_safe hm h (by simp) _ _
  · simp only [if_neg h0]
    obtain ⟨c, hc⟩ := he.resolve_left h0
    obtain ⟨d, hd, hz⟩ := hp
    refine SafeAt.bind ⟨_, _, cstr_ok hd hz, .refl hm⟩ fun bs' m1 hm1 _ => ?_
    rw [cstr_ok hd hz] at hm1; cases hm1
    split
    · exact encodeCall_safe hm h hc (by simp) (by simp)
        (total_bind (write_total _) (total_bind (encode_u32_total _) (write_all_total _)))
    · exact setStatus_safe hm h (by simp) _

theorem encode_error_safe {m : Mem} (hm : m.Ok) {st e p : Ptr} (h : StatusAt m st)
    (he : EncoderAt m e) (hp : StringAt m p) : SafeAt [st, e] [] (encode_error st e p) m := by
  simp only [encode_error]
  refine afterCheck hm h ?_
  by_cases h0 : e = 0
  · simp only [if_pos h0]; exact setNull_safe hm h (by simp) _ _
  · simp only [if_neg h0]
    obtain ⟨c, hc⟩ := he.resolve_left h0
    obtain ⟨d, hd, hz⟩ := hp
    refine SafeAt.bind ⟨_, _, cstr_ok hd hz, .refl hm⟩ fun bs' m1 hm1 _ => ?_
    rw [cstr_ok hd hz] at hm1; cases hm1
    split
    · exact encodeCall_safe hm h hc (by simp) (by simp)
        (total_bind (write_total _) (total_bind (write_total _) (total_bind (encode_u32_total _) (write_all_total _))))
    · exact setStatus_safe hm h (by simp) _

theorem new_decoder_safe {m : Mem} (hm : m.Ok) {st p : Ptr} {n : BitVec 32} (h : StatusAt m st)
    (hp : BytesAt m p n.toNat) : SafeAt [st] [] (new_decoder st p n) m := by
  simp only [new_decoder]
  refine afterCheck hm h ?_
  by_cases h0 : p = 0
  · simp only [if_pos h0]; exact setNull_safe hm h (by simp) _ _
  · simp only [if_neg h0]
    obtain ⟨bs, hbs, hlen, hsafe⟩ := rawSlice_safe (T := [st]) hm hp h0
    refine hsafe.bind fun bs' m1 hm1 _ => ?_
    rw [hbs] at hm1; cases hm1
    exact (setStatus_safe hm h (by simp) _).bind fun _ m1 _ e1 => alloc_safe e1.ok _

theorem decode_none_noPanic (std : Std) (c : Cursor) : ∃ b c', Rust.decode_none std c = (.ok b, c') := by
  rw [Rust.decode_none_spec]
  split
  · exact ⟨_, _, rfl⟩
  · split <;> exact ⟨_, _, rfl⟩

theorem decode_none_safe (std : Std) {m : Mem} (hm : m.Ok) {st d : Ptr} (h : StatusAt m st) (hd : DecoderAt m d) (h0 : d ≠ 0) :
    SafeAt [st, d] [] (decode_none std st d) m := by
  obtain ⟨c, hc⟩ := hd.resolve_left h0
  obtain ⟨b, c', hb⟩ := decode_none_noPanic std c
  simp only [decode_none]
  refine afterCheck hm h ?_
  simp only [if_neg h0]
  refine SafeAt.bind ⟨_, _, runDecoder_ok hc hb, .set hm hc rfl (by simp)⟩ fun a m1 hm1 e1 => ?_
  rw [runDecoder_ok hc hb] at hm1; cases hm1
  exact SafeAt.pure e1.ok _

theorem decode_bytes_safe (std : Std) {m : Mem} (hm : m.Ok) {st d : Ptr} (h : StatusAt m st) (hd : DecoderAt m d) :
    SafeAt [st, d] [] (decode_bytes std st d) m := by
  refine decodeCall_safe hm h hd (by simp) (by simp) _ (fun c => noPanic_of_map (decode_noPanic std .bytes c)) ?_
  intro a m1 h1 hs
  refine (setStatus_safe h1 hs (by simp) _).bind fun _ m2 _ e2 => ?_
  split
  · exact SafeAt.bind (SafeAt.pure e2.ok _) fun _ m3 _ e3 => alloc_safe e3.ok _
  · exact SafeAt.bind (alloc_safe e2.ok _) fun _ m3 _ e3 => alloc_safe e3.ok _

theorem free_decode_bytes_safe (al : Allocator) {m : Mem} (hm : m.Ok) {b : Ptr}
    (h : b = 0 ∨ ∃ data n d, m.obj b = some (.buffer data n) ∧ m.obj data = some (.block d) ∧
      n.toNat ≤ d.length ∧ (al.strict = true → d.length = 1)) :
    SafeAt [] (Call.frees m (.free_decode_bytes b)) (free_decode_bytes al b) m := by
  by_cases h0 : b = 0
  · simp only [free_decode_bytes, h0, ne_eq, not_true, if_false, Call.frees, hm.null]
    exact SafeAt.pure hm _
  · obtain ⟨data, n, d, hb, hd, hn, hs⟩ := h.resolve_left h0
    have hne : data ≠ b := by rintro rfl; rw [hb] at hd; simp at hd
    refine ⟨(), (m.set data none).set b none, ?_, ?_⟩
    · simp only [free_decode_bytes, ne_eq, h0, not_false_eq_true, if_true]
      rw [bind_ret (load_some hb)]
      simp only
      rw [bind_ret (rawSlice_ok hd hn), bind_ret (dealloc_ok hd hs)]
      simp only [release]
      rw [set_other _ _ (Ne.symm hne), hb]
    · simp only [Call.frees, hb]
      have hb' : (m.set data none).obj b = some (.buffer data n) := by rw [set_other _ _ (Ne.symm hne), hb]
      refine ⟨(hm.set hd _).set hb' _, Nat.le_refl _, fun p _ _ hp => ?_, fun p _ hp => ?_, fun p hp => ?_⟩
      · simp only [List.mem_cons, List.not_mem_nil, or_false, not_or] at hp
        rw [set_other _ _ hp.2, set_other _ _ hp.1]
      · simp only [List.mem_cons, List.not_mem_nil, or_false, not_or] at hp
        rw [set_other _ _ hp.2, set_other _ _ hp.1]
      · simp only [List.mem_cons, List.not_mem_nil, or_false] at hp
        rcases hp with rfl | rfl
        · rw [set_other _ _ hne, set_same]
        · exact set_same _ _ _

theorem free_encoder_safe {m : Mem} (hm : m.Ok) {e : Ptr} (h : EncoderAt m e) :
    SafeAt [] (if e = 0 then [] else [e]) (free_encoder e) m := by
  by_cases h0 : e = 0
  · simp only [free_encoder, h0, ne_eq, not_true, if_false, if_true]
    exact SafeAt.pure hm _
  · obtain ⟨c, hc⟩ := h.resolve_left h0
    simp only [free_encoder, ne_eq, h0, not_false_eq_true, if_true, if_false]
    refine ⟨(), m.set e none, ?_, .release hm hc⟩
    rw [bind_ret (encoderCursor_ok hc)]
    simp [release, hc]

theorem free_decoder_safe {m : Mem} (hm : m.Ok) {e : Ptr} (h : DecoderAt m e) :
    SafeAt [] (if e = 0 then [] else [e]) (free_decoder e) m := by
  by_cases h0 : e = 0
  · simp only [free_decoder, h0, ne_eq, not_true, if_false, if_true]
    exact SafeAt.pure hm _
  · obtain ⟨c, hc⟩ := h.resolve_left h0
    simp only [free_decoder, ne_eq, h0, not_false_eq_true, if_true, if_false]
    refine ⟨(), m.set e none, ?_, .release hm hc⟩
    rw [bind_ret (decoderCursor_ok hc)]
    simp [release, hc]

theorem run_safe (std : Std) (al : Allocator) (c : Call) {m : Mem} (hm : m.Ok) (hv : c.Valid al m) :
    SafeAt c.writes (c.frees m) (run std al c) m := by
  cases c
  case new_encoder st =>
    exact SafeAt.ret (afterCheck hm hv ((setStatus_safe hm hv (by simp [Call.writes]) _).bind fun _ _ _ e1 => alloc_safe e1.ok _))
  case encoder_size st e =>
    refine SafeAt.ret (afterCheck hm hv.1 ?_)
    by_cases h0 : e = 0
    · simp only [if_pos h0]; exact setNull_safe hm hv.1 (by simp [Call.writes]) _ _
    · simp only [if_neg h0]
      obtain ⟨c, hc⟩ := hv.2.resolve_left h0
      exact SafeAt.bind ⟨_, _, encoderCursor_ok hc, .refl hm⟩ fun _ _ _ e1 => SafeAt.pure e1.ok _
  case encoder_buffer => exact SafeAt.ret (encoder_buffer_safe hm hv.1 hv.2.1 hv.2.2)
  case encode_bytes => exact SafeAt.ret (encode_bytes_safe hm hv.1 hv.2.1 hv.2.2)
  case encode_string => exact SafeAt.ret (encode_string_safe hm hv.1 hv.2.1 hv.2.2)
  case encode_error => exact SafeAt.ret (encode_error_safe hm hv.1 hv.2.1 hv.2.2)
  case new_decoder => exact SafeAt.ret (new_decoder_safe hm hv.1 hv.2)
  case decode_none => exact SafeAt.ret (decode_none_safe std hm hv.1 hv.2.1 hv.2.2)
  case decode_bytes => exact SafeAt.ret (decode_bytes_safe std hm hv.1 hv.2)
  case free_decode_bytes => exact SafeAt.ret (free_decode_bytes_safe al hm hv)
  case free_decode_string => exact SafeAt.ret (free_string_safe hm hv)
  case free_decode_error => exact SafeAt.ret (free_string_safe hm hv)
  case free_encoder => exact SafeAt.ret (free_encoder_safe hm hv)
  case free_decoder => exact SafeAt.ret (free_decoder_safe hm hv)
  case encode_none => exact SafeAt.ret (encodeScalar_safe hm hv.1 hv.2 (by simp [Call.writes]) (by simp [Call.writes]) (write_total _))
  case encode_array =>
    exact SafeAt.ret (encodeScalar_safe hm hv.1 hv.2 (by simp [Call.writes]) (by simp [Call.writes])
      (total_bind (write_total _) (total_bind (write_total _) (encode_u32_total _))))
  case encode_map =>
    exact SafeAt.ret (encodeScalar_safe hm hv.1 hv.2 (by simp [Call.writes]) (by simp [Call.writes])
      (total_bind (write_total _) (total_bind (write_total _) (total_bind (write_total _) (encode_u32_total _)))))
  case encode_bool =>
    exact SafeAt.ret (encodeScalar_safe hm hv.1 hv.2 (by simp [Call.writes]) (by simp [Call.writes])
      (total_bind (write_total _) (write_total _)))
  case encode_u8 =>
    exact SafeAt.ret (encodeScalar_safe hm hv.1 hv.2 (by simp [Call.writes]) (by simp [Call.writes])
      (total_bind (write_total _) (write_total _)))
  case encode_u16 =>
    exact SafeAt.ret (encodeScalar_safe hm hv.1 hv.2 (by simp [Call.writes]) (by simp [Call.writes])
      (total_bind (write_total _) (varint_total _ _)))
  case encode_u32 =>
    exact SafeAt.ret (encodeScalar_safe hm hv.1 hv.2 (by simp [Call.writes]) (by simp [Call.writes])
      (total_bind (write_total _) (varint_total _ _)))
  case encode_u64 =>
    exact SafeAt.ret (encodeScalar_safe hm hv.1 hv.2 (by simp [Call.writes]) (by simp [Call.writes])
      (total_bind (write_total _) (varint_total _ _)))
  case encode_i32 =>
    exact SafeAt.ret (encodeScalar_safe hm hv.1 hv.2 (by simp [Call.writes]) (by simp [Call.writes])
      (total_bind (write_total _) (varint_total _ _)))
  case encode_i64 =>
    exact SafeAt.ret (encodeScalar_safe hm hv.1 hv.2 (by simp [Call.writes]) (by simp [Call.writes])
      (total_bind (write_total _) (varint_total _ _)))
  case encode_f32 =>
    exact SafeAt.ret (encodeScalar_safe hm hv.1 hv.2 (by simp [Call.writes]) (by simp [Call.writes])
      (total_bind (write_total _) (write_all_total _)))
  case encode_f64 =>
    exact SafeAt.ret (encodeScalar_safe hm hv.1 hv.2 (by simp [Call.writes]) (by simp [Call.writes])
      (total_bind (write_total _) (write_all_total _)))
  case decode_array st d k =>
    exact SafeAt.ret (decodeCall_safe hm hv.1 hv.2 (by simp [Call.writes]) (by simp [Call.writes]) _
      (fun c => noPanic_of_map (decode_noPanic std (.array k.into) c)) fun a m1 h1 hs => pass_safe h1 hs (by simp [Call.writes]) _)
  case decode_map st d k v =>
    exact SafeAt.ret (decodeCall_safe hm hv.1 hv.2 (by simp [Call.writes]) (by simp [Call.writes]) _
      (fun c => noPanic_of_map (decode_noPanic std (.map k.into v.into) c)) fun a m1 h1 hs => pass_safe h1 hs (by simp [Call.writes]) _)
  case decode_string =>
    exact SafeAt.ret (decodeCall_safe hm hv.1 hv.2 (by simp [Call.writes]) (by simp [Call.writes]) _
      (fun c => noPanic_of_map (decode_noPanic std .string c)) fun a m1 h1 hs => newCString_safe h1 hs (by simp [Call.writes]) _)
  case decode_error =>
    exact SafeAt.ret (decodeCall_safe hm hv.1 hv.2 (by simp [Call.writes]) (by simp [Call.writes]) _
      (fun c => noPanic_of_map (decode_noPanic std .error c)) fun a m1 h1 hs => newCString_safe h1 hs (by simp [Call.writes]) _)
  case decode_bool =>
    exact SafeAt.ret (decodeCall_safe hm hv.1 hv.2 (by simp [Call.writes]) (by simp [Call.writes]) _
      (fun c => noPanic_of_map (decode_noPanic std .bool c)) fun a m1 h1 hs => pass_safe h1 hs (by simp [Call.writes]) _)
  case decode_u8 =>
    exact SafeAt.ret (decodeCall_safe hm hv.1 hv.2 (by simp [Call.writes]) (by simp [Call.writes]) _
      (fun c => noPanic_of_map (decode_noPanic std .u8 c)) fun a m1 h1 hs => pass_safe h1 hs (by simp [Call.writes]) _)
  case decode_u16 =>
    exact SafeAt.ret (decodeCall_safe hm hv.1 hv.2 (by simp [Call.writes]) (by simp [Call.writes]) _
      (fun c => noPanic_of_map (decode_noPanic std .u16 c)) fun a m1 h1 hs => pass_safe h1 hs (by simp [Call.writes]) _)
  case decode_u32 =>
    exact SafeAt.ret (decodeCall_safe hm hv.1 hv.2 (by simp [Call.writes]) (by simp [Call.writes]) _
      (fun c => noPanic_of_map (decode_noPanic std .u32 c)) fun a m1 h1 hs => pass_safe h1 hs (by simp [Call.writes]) _)
  case decode_u64 =>
    exact SafeAt.ret (decodeCall_safe hm hv.1 hv.2 (by simp [Call.writes]) (by simp [Call.writes]) _
      (fun c => noPanic_of_map (decode_noPanic std .u64 c)) fun a m1 h1 hs => pass_safe h1 hs (by simp [Call.writes]) _)
  case decode_i32 =>
    exact SafeAt.ret (decodeCall_safe hm hv.1 hv.2 (by simp [Call.writes]) (by simp [Call.writes]) _
      (fun c => noPanic_of_map (decode_noPanic std .i32 c)) fun a m1 h1 hs => pass_safe h1 hs (by simp [Call.writes]) _)
  case decode_i64 =>
    exact SafeAt.ret (decodeCall_safe hm hv.1 hv.2 (by simp [Call.writes]) (by simp [Call.writes]) _
      (fun c => noPanic_of_map (decode_noPanic std .i64 c)) fun a m1 h1 hs => pass_safe h1 hs (by simp [Call.writes]) _)
  case decode_f32 =>
    exact SafeAt.ret (decodeCall_safe hm hv.1 hv.2 (by simp [Call.writes]) (by simp [Call.writes]) _
      (fun c => noPanic_of_map (decode_noPanic std .f32 c)) fun a m1 h1 hs => pass_safe h1 hs (by simp [Call.writes]) _)
  case decode_f64 =>
    exact SafeAt.ret (decodeCall_safe hm hv.1 hv.2 (by simp [Call.writes]) (by simp [Call.writes]) _
      (fun c => noPanic_of_map (decode_noPanic std .f64 c)) fun a m1 h1 hs => pass_safe h1 hs (by simp [Call.writes]) _)

end CApi
