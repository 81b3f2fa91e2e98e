import Verif.Text.RustParseFacts
import Verif.Text.RustRunLink
import Verif.Text.GoReads

/-!
# The generated Rust program can be read back, if no name is a keyword
-/

namespace RustText

open Utils RustAst RustParse
open Text hiding Tok lex keywords
open Gen (PKind)
open GoText (FieldD MsgD FileD IsIdent IsDotted EnumWf Upper forall_cons forall_nil forall_append)
open Package (EnumD qualify)
open RustRun (Part parts typeItems program_parts mem_parts_type mem_parts_enum mem_parts_head)

/-! ## Well-formed types -/

structure TypeWf (t : Bytes × List FieldD) : Prop where
  name : IsDotted t.1
  fields : ∀ g ∈ t.2, FieldWf g

theorem typeWf_msg : ∀ m : MsgD, MsgWf m → ∀ s, (s = [] ∨ IsDotted s) → ∀ t ∈ m.types s, TypeWf t := by
  intro m
  induction m using MsgD.rec (motive_2 := fun ms => (∀ m ∈ ms, MsgWf m) → ∀ s, (s = [] ∨ IsDotted s) → ∀ t ∈ GoText.typesAll s ms, TypeWf t) with
  | mk n e fs es ms ih =>
    intro h s hs t ht
    cases h with
    | mk hn hf he hm =>
      have hq := IsDotted.qualify hs hn
      rw [MsgD.types] at ht
      rcases List.mem_append.mp ht with ht | ht
      · exact ih hm _ (.inr hq) t ht
      · rw [List.mem_singleton] at ht; subst ht; exact ⟨hq, hf⟩
  | nil => rename_i s _ t ht; simp [GoText.typesAll] at ht
  | cons m ms ihm ih =>
    rename_i h s hs t ht
    obtain ⟨n, e, fs, es, mm⟩ := m
    rw [GoText.typesAll] at ht
    rcases List.mem_append.mp ht with ht | ht
    · cases e with
      | true => simp at ht
      | false => exact ihm (h _ (List.mem_cons_self ..)) s hs t (by simpa using ht)
    · exact ih (fun m hm => h m (List.mem_cons_of_mem _ hm)) s hs t ht

theorem FileWf.typeWf {f : FileD} (h : FileWf f) {t : Bytes × List FieldD} (ht : t ∈ f.types) : TypeWf t := by
  obtain ⟨m, hm, ht⟩ := List.mem_flatMap.mp ht
  exact typeWf_msg m (h.messages m hm) _ h.package t ht

theorem FileWf.enumWf {f : FileD} (h : FileWf f) {e : Bytes × EnumD} (he : e ∈ f.enumTypes) : (e.1 = [] ∨ IsDotted e.1) ∧ EnumWf e.2 := by
  rcases List.mem_append.mp he with he | he
  · obtain ⟨x, hx, rfl⟩ := List.mem_map.mp he
    exact ⟨h.package, h.enums x hx⟩
  · obtain ⟨m, hm, he⟩ := List.mem_flatMap.mp he
    have hw := h.messages m hm
    obtain ⟨n, b, fs, es, ms⟩ := m
    obtain ⟨x, hx, rfl⟩ := List.mem_map.mp he
    cases hw with
    | mk hn _ hes _ => exact ⟨.inr (.qualify h.package hn), hes x hx⟩

/-! ## Keywords -/

/-- The keywords as texts. -/
def keywordTexts : List Bytes :=
  [str!"as", str!"break", str!"const", str!"continue", str!"crate", str!"else", str!"enum", str!"extern", str!"false", str!"fn", str!"for", str!"if",
   str!"impl", str!"in", str!"let", str!"loop", str!"match", str!"mod", str!"move", str!"mut", str!"pub", str!"ref", str!"return", str!"self",
   str!"Self", str!"static", str!"struct", str!"super", str!"trait", str!"true", str!"type", str!"unsafe", str!"use", str!"where", str!"while",
   str!"async", str!"await", str!"dyn", str!"abstract", str!"become", str!"box", str!"do", str!"final", str!"macro", str!"override", str!"priv",
   str!"typeof", str!"unsized", str!"virtual", str!"yield", str!"try"]

theorem keywords_texts : keywords = keywordTexts.map ofBytes ∧ Package.Rust.keywords = keywordTexts.map (·.map BitVec.toNat) := by
  constructor <;> decide +kernel

theorem map_toNat_inj {a b : Bytes} (h : a.map BitVec.toNat = b.map BitVec.toNat) : a = b :=
  List.map_inj_right (fun x y hxy => BitVec.eq_of_toNat_eq hxy) |>.mp h

/-- The two lists of keywords agree. -/
theorem keyword_iff (b : Bytes) : ofBytes b ∈ keywords ↔ b.map BitVec.toNat ∈ Package.Rust.keywords := by
  rw [keywords_texts.1, keywords_texts.2, List.mem_map, List.mem_map]
  constructor
  · rintro ⟨x, hx, h⟩; exact ⟨x, hx, by rw [ofBytes_inj h]⟩
  · rintro ⟨x, hx, h⟩; exact ⟨x, hx, by rw [map_toNat_inj h]⟩

theorem snakeBytes_toNat (s : Bytes) : (snakeBytes s).map BitVec.toNat = snakeCase (s.map BitVec.toNat) := by
  have hlt : ∀ x ∈ snakeCase (s.map BitVec.toNat), x < 256 := by
    refine RustRun.snakeLoop_lt _ [] false ?_ (by simp)
    intro x hx
    obtain ⟨c, _, rfl⟩ := List.mem_map.mp hx
    exact c.isLt
  rw [snakeBytes, List.map_map]
  conv => rhs; rw [← List.map_id (snakeCase (s.map BitVec.toNat))]
  refine List.map_congr_left fun x hx => ?_
  simp [Nat.mod_eq_of_lt (hlt x hx)]

theorem snake_keyword (b : Bytes) : snake b ∈ keywords ↔ snakeCase (b.map BitVec.toNat) ∈ Package.Rust.keywords := by
  rw [snake, keyword_iff, snakeBytes_toNat]

theorem keywords_shape : ∀ w ∈ keywords, (w = go!"Self" ∨ ∃ b r, w = .byte b :: r ∧ isLower b = true) ∧ Sym.byte 0x5F ∉ w := by
  have : ∀ w ∈ keywords, (w = go!"Self" ∨ (match w with | .byte b :: _ => isLower b | _ => false) = true) ∧ Sym.byte 0x5F ∉ w := by decide +kernel
  intro w hw
  refine ⟨(this w hw).1.imp id ?_, (this w hw).2⟩
  intro h
  split at h
  · exact ⟨_, _, rfl, h⟩
  · cases h

theorem upper_seg {n : Ident} (h : Upper n) : Seg n := by
  by_cases hk : n ∈ keywords
  · rcases (keywords_shape n hk).1 with h1 | ⟨b, r, rfl, hb⟩
    · exact .inr (.inr h1)
    · obtain ⟨c, r', he, hc⟩ := h
      cases he
      rw [GoText.upper_not_lower b hc] at hb
      cases hb
  · refine .inl ⟨hk, ?_⟩
    rintro rfl
    obtain ⟨c, r', he, hc⟩ := h
    cases he
    exact absurd hc (by decide)

theorem upper_named {n : Ident} (h : Upper n) (hk : n ∉ keywords) : Named n := by
  rcases upper_seg h with h1 | rfl | rfl
  · exact h1
  · exact absurd (by decide +kernel) hk
  · exact absurd (by decide +kernel) hk

theorem letter_ne {n : Ident} (h : ∃ b r, n = .byte b :: r ∧ (isLower b = true ∨ isUpper b = true)) : n ≠ go!"_" := by
  rintro rfl
  obtain ⟨b, r, he, hb⟩ := h
  cases he
  revert hb; decide

theorem snake_named {g : Bytes} (h : IsIdent g) (hk : snake g ∉ keywords) : Named (snake g) := by
  obtain ⟨c, cs, he, hc, _⟩ := snake_ident h
  exact ⟨hk, letter_ne ⟨c, ofBytes cs, by rw [snake, he]; rfl, .inl hc⟩⟩

theorem ident_named {v : Bytes} (h : IsIdent v) (hk : ofBytes v ∉ keywords) : Named (ofBytes v) := by
  obtain ⟨c, cs, rfl, hc, _⟩ := h
  exact ⟨hk, letter_ne ⟨c, ofBytes cs, rfl, hc⟩⟩

/-- A name with an underscore inside is no keyword. -/
theorem named_suffix (n : Ident) {s : Ident} (h : Sym.byte 0x5F ∈ s) (hl : 2 ≤ s.length) : Named (n ++ s) := by
  refine ⟨fun hk => (keywords_shape _ hk).2 (List.mem_append_right _ h), fun he => ?_⟩
  have := congrArg List.length he
  simp only [List.length_append, List.length_cons, List.length_nil] at this
  omega

/-! ## Expressions -/

section
variable {l : Level} {s : Bool}

theorem ok_path {p : List Ident} (hl : l.isPost) (h : PathOk p) : ExprOk l s (.path p) := ⟨hl, h⟩
theorem ok_var {n : Ident} (hl : l.isPost) (h : Seg n) : ExprOk l s (var n) := ⟨hl, by simp, by simpa using h⟩
theorem ok_vb (hl : l.isPost) : ExprOk l s vb := ok_var hl (by decide +kernel)
theorem ok_sf {n : Ident} (hl : l.isPost) (h : Named n) : ExprOk l s (sf n) := ⟨hl, ok_var trivial (by decide +kernel), h⟩
theorem ok_method {e a : Expr} {n : Ident} (hl : l.isPost) (h : ExprOk .post s e) (hn : Named n) (ha : ExprOk .args true a) : ExprOk l s (.method e n a) :=
  ⟨hl, h, hn, ha⟩
theorem ok_call {p : List Ident} {a : Expr} (hl : l.isPost) (h : PathOk p) (ha : ExprOk .args true a) : ExprOk l s (.call (.path p) a) :=
  ⟨hl, ok_path trivial h, ha, by intro e n h; cases h⟩
theorem ok_tr {e : Expr} (hl : l.isPost) (h : ExprOk .post s e) : ExprOk l s (.tr e) := ⟨hl, h⟩
theorem ok_anil : ExprOk .args true .anil := rfl
theorem ok_args1 {a : Expr} (h : ExprOk .full true a) : ExprOk .args true (args1 a) := ⟨rfl, h, ok_anil⟩
theorem ok_args2 {a b : Expr} (h : ExprOk .full true a) (h2 : ExprOk .full true b) : ExprOk .args true (args2 a b) := ⟨rfl, h, ok_args1 h2⟩
theorem ok_args3 {a b c : Expr} (h : ExprOk .full true a) (h2 : ExprOk .full true b) (h3 : ExprOk .full true c) : ExprOk .args true (args3 a b c) :=
  ⟨rfl, h, ok_args2 h2 h3⟩
theorem ok_okOf {e : Expr} (hl : l.isPost) (h : ExprOk .full true e) : ExprOk l s (okOf e) := ok_call hl (by decide +kernel) (ok_args1 h)
theorem ok_someOf {e : Expr} (hl : l.isPost) (h : ExprOk .full true e) : ExprOk l s (someOf e) := ok_call hl (by decide +kernel) (ok_args1 h)
theorem ok_okOr {e : Expr} {x : Ident} (hl : l.isPost) (h : ExprOk .post s e) (hx : Named x) : ExprOk l s (okOr e x) :=
  ok_tr hl (ok_method trivial h (by decide +kernel) (ok_args1 (ok_path trivial ⟨by simp, by
    simp only [List.mem_cons, List.not_mem_nil, or_false, forall_eq_or_imp, forall_eq]; exact ⟨by decide +kernel, .inl hx⟩⟩)))
theorem ok_len {e : Expr} (hl : l.isPost) (h : ExprOk .post s e) : ExprOk l s (len e) := ok_method hl h (by decide +kernel) ok_anil
theorem ok_bcall {m : Ident} {a : Expr} (hl : l.isPost) (hm : Named m) (ha : ExprOk .args true a) : ExprOk l s (bcall m a) :=
  ok_tr hl (ok_method trivial (ok_vb trivial) hm ha)
theorem pathOk2 {t m : Ident} (h : Seg t) (hm : Seg m) : PathOk [t, m] :=
  ⟨by simp, by simp only [List.mem_cons, List.not_mem_nil, or_false, forall_eq_or_imp, forall_eq]; exact ⟨h, hm⟩⟩
theorem ok_decodeOf {t : Ident} (hl : l.isPost) (h : Seg t) : ExprOk l s (decodeOf t) :=
  ok_tr hl (ok_call trivial (pathOk2 h (by decide +kernel)) (ok_args1 (ok_vb trivial)))
theorem ok_encoder (k : PKind) : Named (encoder k) := by cases k <;> decide +kernel
theorem ok_decoder (k : PKind) : Named (decoder k) := by cases k <;> decide +kernel
theorem ok_kindOf (k : PKind) : ExprOk .full true (kindOf k) := ⟨trivial, by cases k <;> decide +kernel⟩
end

theorem ok_block {ss : List Stmt} (h : ∀ s ∈ ss, StmtOk true s) (ht : ∀ a s b, ss = a ++ s :: b → (∃ e, s = .tail e) → b = []) : StmtOk false (block ss) := by
  induction ss with
  | nil => rfl
  | cons s ss ih =>
    refine ⟨rfl, h s (List.mem_cons_self ..), ih (fun t ht => h t (List.mem_cons_of_mem _ ht)) (fun a x b he => ht (s :: a) x b (by rw [he]; rfl)), ?_⟩
    intro hs
    have := ht [] s ss rfl hs
    subst this
    rfl

/-- A block without a last expression. -/
theorem ok_plain {ss : List Stmt} (h : ∀ s ∈ ss, StmtOk true s ∧ ∀ e, s ≠ .tail e) : StmtOk false (block ss) :=
  ok_block (fun s hs => (h s hs).1) (by
    rintro a s b rfl ⟨e, rfl⟩
    exact absurd rfl ((h (.tail e) (by simp)).2 e))

/-- A block with a last expression. -/
theorem ok_tailed {ss : List Stmt} {e : Expr} (h : ∀ s ∈ ss, StmtOk true s ∧ ∀ e, s ≠ .tail e) (he : ExprOk .full true e) : StmtOk false (block (ss ++ [.tail e])) := by
  refine ok_block ?_ ?_
  · intro s hs
    rcases List.mem_append.mp hs with hs | hs
    · exact (h s hs).1
    · rw [List.mem_singleton] at hs; subst hs; exact ⟨rfl, he⟩
  · rintro a s b heq ⟨e', rfl⟩
    cases hb : b.reverse with
    | nil => exact List.reverse_eq_nil_iff.mp hb
    | cons z zs =>
      exfalso
      have hb' : b = zs.reverse ++ [z] := by
        have := congrArg List.reverse hb
        simpa using this
      rw [hb', ← List.cons_append, ← List.append_assoc] at heq
      have := List.append_inj_left' heq rfl
      exact (h (.tail e') (by rw [this]; simp)).2 e' rfl

/-- No last expression. -/
theorem ne_tail {s : Stmt} (h : (match s with | .tail _ => false | _ => true) = true) : ∀ e, s ≠ .tail e := by
  rintro e rfl; cases h

/-! ## Encoders -/

theorem ok_encArg {n : Ident} (k : PKind) (h : Named n) : ExprOk .full true (encArg n k) := by
  unfold encArg
  split
  · exact ⟨trivial, ok_sf trivial h, by decide +kernel⟩
  · exact ⟨trivial, ok_sf trivial h⟩
  · exact ⟨trivial, ok_sf trivial h⟩
  · exact ok_sf trivial h

theorem ok_encSlice {n : Ident} (k : PKind) (h : Named n) : ∀ s ∈ encSlice n k, StmtOk true s ∧ ∀ e, s ≠ .tail e := by
  refine forall_cons ⟨⟨rfl, ok_bcall trivial (by decide +kernel) (ok_args2 (ok_len trivial (ok_sf trivial h)) (ok_kindOf k))⟩, ne_tail rfl⟩ (forall_cons ⟨⟨rfl, .inl (by decide +kernel), ⟨trivial, ok_sf trivial h⟩, ok_plain (forall_cons ?_ forall_nil)⟩, ne_tail rfl⟩ forall_nil)
  split
  · exact ⟨⟨rfl, ok_tr trivial (ok_method trivial (ok_var trivial (by decide +kernel)) (by decide +kernel) (ok_args1 (ok_vb trivial)))⟩, ne_tail rfl⟩
  · exact ⟨⟨rfl, ok_bcall trivial (ok_encoder _) (ok_args1 ⟨trivial, ok_var trivial (by decide +kernel)⟩)⟩, ne_tail rfl⟩
  · exact ⟨⟨rfl, ok_bcall trivial (ok_encoder _) (ok_args1 (ok_var trivial (by decide +kernel)))⟩, ne_tail rfl⟩

theorem ok_encMap {n : Ident} (kk k : PKind) (h : Named n) : ∀ s ∈ encMap n kk k, StmtOk true s ∧ ∀ e, s ≠ .tail e := by
  refine forall_cons ⟨⟨rfl, ok_bcall trivial (by decide +kernel) (ok_args3 (ok_len trivial (ok_sf trivial h)) (ok_kindOf kk) (ok_kindOf k))⟩, ne_tail rfl⟩ (forall_cons ⟨⟨rfl, by decide +kernel, by decide +kernel, ⟨trivial, ok_sf trivial h⟩, ok_plain (forall_cons ?_ (forall_cons ?_ forall_nil))⟩, ne_tail rfl⟩ forall_nil)
  · split
    · exact ⟨⟨rfl, ok_bcall trivial (ok_encoder _) (ok_args1 ⟨trivial, ok_var trivial (by decide +kernel)⟩)⟩, ne_tail rfl⟩
    · exact ⟨⟨rfl, ok_bcall trivial (ok_encoder _) (ok_args1 (ok_var trivial (by decide +kernel)))⟩, ne_tail rfl⟩
  · split
    · exact ⟨⟨rfl, ok_tr trivial (ok_method trivial (ok_var trivial (by decide +kernel)) (by decide +kernel) (ok_args1 (ok_vb trivial)))⟩, ne_tail rfl⟩
    · exact ⟨⟨rfl, ok_bcall trivial (by decide +kernel) (ok_args1 ⟨trivial, ⟨trivial, ok_var trivial (by decide +kernel)⟩, by decide +kernel⟩)⟩, ne_tail rfl⟩
    · exact ⟨⟨rfl, ok_bcall trivial (ok_encoder _) (ok_args1 ⟨trivial, ok_var trivial (by decide +kernel)⟩)⟩, ne_tail rfl⟩

theorem ok_encMessageField {g : FieldD} (h : Named (snake g.name)) : ∀ s ∈ encMessageField g, StmtOk true s ∧ ∀ e, s ≠ .tail e := by
  unfold encMessageField
  split
  · exact ok_encMap _ _ h
  · exact forall_cons ⟨⟨rfl, ok_tr trivial (ok_method trivial (ok_sf trivial h) (by decide +kernel) (ok_args1 (ok_vb trivial)))⟩, ne_tail rfl⟩ forall_nil

/-! ## Types and signatures -/

theorem ok_tname {n : Ident} (h : Seg n) : TyOk (tname n) := ⟨by simp, by simpa using h⟩
theorem ok_tbytes : TyOk tbytes := ⟨by decide +kernel, ok_tname (by decide +kernel)⟩
theorem ok_terror : TyOk terror := ⟨by decide +kernel, by unfold TyOk; decide +kernel⟩
theorem ok_tdecoder : TyOk tdecoder := ⟨by decide +kernel, ok_tbytes⟩

theorem ok_scalarTy (k : PKind) : TyOk (scalarTy k) := by
  cases k <;> first | exact ok_tname (by decide +kernel) | exact ok_tbytes

theorem ok_elemTy {k : PKind} {t : Ident} (h : k = .message ∨ k = .enum → Seg t) : TyOk (elemTy k t) := by
  unfold elemTy
  split
  · exact ok_tname (h (.inl rfl))
  · exact ok_tname (h (.inr rfl))
  · exact ok_scalarTy _

theorem ok_encodeSig : SigOk encodeSig := by
  refine ⟨by decide +kernel, forall_cons ⟨by decide +kernel, by decide +kernel, ok_tbytes⟩ forall_nil, by decide +kernel, ⟨by decide +kernel, ok_tbytes⟩, ok_terror⟩

theorem ok_decodeSig {n : Ident} {t : Ty} {b : Bool} (hn : Named n) (ht : TyOk t) : SigOk (decodeSig n t b) :=
  ⟨hn, forall_cons ⟨by decide +kernel, ok_tdecoder⟩ forall_nil, by decide +kernel, ⟨by decide +kernel, ht⟩, ok_terror⟩

theorem ok_fieldTy {g : FieldD} (h : FieldWf g) : TyOk (fieldTy g) := by
  have he := ok_elemTy (k := g.kind) (t := camel g.type) fun hk => upper_seg (GoText.upper_camel (h.type hk))
  unfold fieldTy
  split
  · exact he
  · exact ⟨by decide +kernel, he⟩
  · exact ⟨by decide +kernel, ok_scalarTy _, he⟩

theorem ok_encodeImpl {full : Bytes} {fs : List FieldD} (hn : Named (camel full)) (h : ∀ g ∈ fs, Named (snake g.name)) : ItemOk (encodeImpl full fs) := by
  refine ⟨by decide +kernel, hn, ok_encodeSig, ok_tailed (forall_append (forall_append ?_ ?_) ?_) (ok_okOf trivial (ok_vb trivial))⟩
  · split
    · exact forall_nil
    · refine forall_cons ⟨⟨rfl, ?_⟩, ne_tail rfl⟩ forall_nil
      have : ∀ (vs : List FieldD) (e : Expr), (∀ g ∈ vs, Named (snake g.name)) → (∀ l : Level, l.isPost → ExprOk l true e) →
          ∀ l : Level, l.isPost → ExprOk l true (vs.foldl (fun e f => encValue (snake f.name) f.kind e) e) := by
        intro vs
        induction vs with
        | nil => intro e _ he; exact he
        | cons g vs ih =>
          intro e hg he
          refine ih _ (fun g' hg' => hg g' (List.mem_cons_of_mem _ hg')) ?_
          intro l hl
          exact ok_tr hl (ok_method trivial (he _ trivial) (ok_encoder _) (ok_args1 (ok_encArg _ (hg g (List.mem_cons_self ..)))))
      exact this (fs.filter FieldD.isValue) vb (fun g hg => h g (List.mem_filter.mp hg).1) (fun l hl => ok_vb hl) .full trivial
  · intro s hs
    obtain ⟨g, hg, hs⟩ := List.mem_flatMap.mp hs
    exact ok_encSlice _ (h g (List.mem_filter.mp hg).1) s hs
  · intro s hs
    obtain ⟨g, hg, hs⟩ := List.mem_flatMap.mp hs
    exact ok_encMessageField (h g (List.mem_filter.mp hg).1) s hs

/-! ## Decoders -/

theorem ok_noneCheck : StmtOk true noneCheck ∧ ∀ e, noneCheck ≠ .tail e :=
  ⟨⟨rfl, ok_method trivial (ok_vb trivial) (by decide +kernel) ok_anil, ok_plain (forall_cons ⟨⟨rfl, ok_okOf trivial (ok_var trivial (by decide +kernel))⟩, ne_tail rfl⟩ forall_nil)⟩, ne_tail rfl⟩

theorem ok_errorCheck : StmtOk true errorCheck ∧ ∀ e, errorCheck ≠ .tail e :=
  ⟨⟨rfl, by decide +kernel, by decide +kernel, ok_method trivial (ok_vb trivial) (by decide +kernel) ok_anil,
    ok_plain (forall_cons ⟨⟨rfl, ok_call trivial (by decide +kernel) (ok_args1 (ok_var trivial (by decide +kernel)))⟩, ne_tail rfl⟩ forall_nil)⟩, ne_tail rfl⟩

theorem ok_range {n : Ident} (h : Seg n) : ExprOk .full false (.range (.num go!"0") (var n)) := ⟨rfl, trivial, ok_var trivial h⟩

theorem ok_sliceFn {n t : Ident} (k : PKind) (ht : k = .message ∨ k = .enum → Seg t) : StmtOk true (sliceFn n k t) ∧ ∀ e, sliceFn n k t ≠ .tail e := by
  have hs : Named (n ++ go!"_size") := named_suffix n (by decide) (by decide)
  refine ⟨⟨rfl, ok_decodeSig (named_suffix n (by decide) (by decide)) ⟨by decide +kernel, ok_elemTy ht⟩, ?_⟩, ne_tail rfl⟩
  refine ok_tailed (ss := [_, _, _]) (forall_cons ⟨⟨rfl, hs, ok_bcall trivial (by decide +kernel) (ok_args1 (ok_kindOf k))⟩, ne_tail rfl⟩ (forall_cons ⟨⟨rfl, by decide +kernel, ?_⟩, ne_tail rfl⟩ (forall_cons ⟨⟨rfl, .inr rfl, ok_range (.inl hs), ?_⟩, ne_tail rfl⟩ forall_nil)))
    (ok_okOf trivial (ok_someOf trivial (ok_var trivial (by decide +kernel))))
  · exact ok_call trivial (by decide +kernel) (ok_args1 (ok_var trivial (.inl hs)))
  · refine ok_plain (forall_cons ⟨⟨rfl, ok_method trivial (ok_var trivial (by decide +kernel)) (by decide +kernel) (ok_args1 ?_)⟩, ne_tail rfl⟩ forall_nil)
    split
    · exact ok_okOr trivial (ok_decodeOf trivial (ht (.inl rfl))) (by decide +kernel)
    · exact ok_bcall trivial (ok_decoder _) ok_anil

theorem ok_tryFrom {l : Level} {t x : Ident} {m : Ident} (hl : l.isPost) (ht : Seg t) (hm : Named m) (hx : Named x) :
    ExprOk l true (okOr (.method (.call (.path [t, go!"try_from"]) (args1 (bcall m .anil))) go!"ok" .anil) x) :=
  ok_okOr hl (ok_method trivial (ok_call trivial (pathOk2 ht (by decide +kernel)) (ok_args1 (ok_bcall trivial hm ok_anil))) (by decide +kernel) ok_anil) hx

theorem ok_mapFn {n t : Ident} (kk k : PKind) (ht : k = .message ∨ k = .enum → Seg t) : StmtOk true (mapFn n kk k t) ∧ ∀ e, mapFn n kk k t ≠ .tail e := by
  refine ⟨⟨rfl, ok_decodeSig (named_suffix n (by decide) (by decide)) ⟨by decide +kernel, ok_scalarTy kk, ok_elemTy ht⟩, ?_⟩, ne_tail rfl⟩
  refine ok_tailed (ss := [_, _, _, _]) (forall_cons ok_noneCheck (forall_cons ⟨⟨rfl, by decide +kernel, ?_⟩, ne_tail rfl⟩ (forall_cons ⟨⟨rfl, by decide +kernel, ?_⟩, ne_tail rfl⟩ (forall_cons ⟨⟨rfl, .inr rfl, ok_range (by decide +kernel), ?_⟩, ne_tail rfl⟩ forall_nil))))
    (ok_okOf trivial (ok_someOf trivial (ok_var trivial (by decide +kernel))))
  · exact ok_okOr trivial (ok_method trivial (ok_method trivial (ok_vb trivial) (by decide +kernel) (ok_args2 (ok_kindOf kk) (ok_kindOf k))) (by decide +kernel) ok_anil) (by decide +kernel)
  · exact ok_call trivial (by decide +kernel) ok_anil
  · refine ok_plain (forall_cons ⟨⟨rfl, by decide +kernel, ok_bcall trivial (ok_decoder _) ok_anil⟩, ne_tail rfl⟩ (forall_cons ⟨⟨rfl, by decide +kernel, ?_⟩, ne_tail rfl⟩ (forall_cons ⟨⟨rfl, ?_⟩, ne_tail rfl⟩ forall_nil)))
    · unfold valueExpr
      split
      · exact ok_okOr trivial (ok_decodeOf trivial (ht (.inl rfl))) (by decide +kernel)
      · exact ok_tryFrom trivial (ht (.inr rfl)) (ok_decoder _) (by decide +kernel)
      · exact ok_bcall trivial (ok_decoder _) ok_anil
    · exact ok_method trivial (ok_var trivial (by decide +kernel)) (by decide +kernel) (ok_args2 (ok_var trivial (by decide +kernel)) (ok_var trivial (by decide +kernel)))

theorem ok_fieldsOf {fs : List (Ident × Expr)} (h : ∀ p ∈ fs, Named p.1 ∧ ExprOk .full true p.2) : ExprOk .fields true (fieldsOf fs) := by
  induction fs with
  | nil => rfl
  | cons p fs ih =>
    have hp := h p (List.mem_cons_self ..)
    exact ⟨rfl, hp.1, hp.2, ih fun q hq => h q (List.mem_cons_of_mem _ hq)⟩

theorem ok_initCall {n x : Ident} (hx : Named x) : ExprOk .full true (initCall n x) :=
  ok_okOr trivial (ok_tr trivial (ok_call trivial ⟨by simp, by simpa using .inl (named_suffix n (by decide) (by decide))⟩ (ok_args1 (ok_vb trivial)))) hx

theorem ok_decodeImpl {full : Bytes} {fs : List FieldD} (hn : Named (camel full)) (h : ∀ g ∈ fs, Named (snake g.name)) (hw : ∀ g ∈ fs, FieldWf g) :
    ItemOk (decodeImpl full fs) := by
  have ht : ∀ g ∈ fs, g.kind = .message ∨ g.kind = .enum → Seg (camel g.type) := fun g hg hk => upper_seg (GoText.upper_camel ((hw g hg).type hk))
  refine ⟨by decide +kernel, hn, ok_decodeSig (by decide +kernel) (ok_tname (.inl hn)), ok_tailed (forall_append (forall_append ?_ ?_) ?_) (ok_okOf trivial (ok_someOf trivial ⟨trivial, rfl, .inl hn, ok_fieldsOf (forall_append (forall_append ?_ ?_) ?_)⟩))⟩
  · exact forall_cons ok_noneCheck (forall_cons ok_errorCheck forall_nil)
  · intro s hs
    obtain ⟨g, hg, rfl⟩ := List.mem_map.mp hs
    exact ok_sliceFn _ (ht g (List.mem_filter.mp hg).1)
  · intro s hs
    obtain ⟨g, hg, hs⟩ := List.mem_flatMap.mp hs
    unfold mapFns at hs
    split at hs
    · rw [List.mem_singleton] at hs; subst hs; exact ok_mapFn _ _ (ht g (List.mem_filter.mp hg).1)
    · cases hs
  · intro p hp
    obtain ⟨g, hg, rfl⟩ := List.mem_map.mp hp
    have hg := (List.mem_filter.mp hg).1
    refine ⟨h g hg, ?_⟩
    simp only [initValue]
    split
    · rename_i hk; exact ok_tryFrom trivial (ht g hg (.inr hk)) (by decide +kernel) (by decide +kernel)
    · exact ok_bcall trivial (ok_decoder _) ok_anil
  · intro p hp
    obtain ⟨g, hg, rfl⟩ := List.mem_map.mp hp
    exact ⟨h g (List.mem_filter.mp hg).1, ok_initCall (by decide +kernel)⟩
  · intro p hp
    obtain ⟨g, hg, rfl⟩ := List.mem_map.mp hp
    obtain ⟨hg, hm⟩ := List.mem_filter.mp hg
    unfold initMessageField
    split
    · exact ⟨h g hg, ok_initCall (by decide +kernel)⟩
    · rename_i hs
      refine ⟨h g hg, ok_okOr trivial (ok_decodeOf trivial (ht g hg ?_)) (by decide +kernel)⟩
      unfold FieldD.isMessage at hm
      split at hm
      · exact .inl (by simpa using hm)
      · rename_i hx; exact absurd hx (hs _)
      · cases hm

/-! ## Programs -/

/-- No name is printed as a keyword of Rust: no name of a struct (only `Self` is possible), of a field, of an enum or of a value of an
enum. -/
structure NoKeywords (f : FileD) : Prop where
  types : ∀ t ∈ f.types, (camelCase t.1).map BitVec.toNat ∉ Package.Rust.keywords
  fields : ∀ t ∈ f.types, ∀ g ∈ t.2, snakeCase (g.name.map BitVec.toNat) ∉ Package.Rust.keywords
  enums : ∀ e ∈ f.enumTypes, (camelCase (qualify e.1 e.2.name)).map BitVec.toNat ∉ Package.Rust.keywords
  values : ∀ e ∈ f.enumTypes, ∀ v ∈ e.2.values, v.map BitVec.toNat ∉ Package.Rust.keywords

/-- The same, of one type. -/
def TypeNamed (t : Bytes × List FieldD) : Prop := Named (camel t.1) ∧ ∀ g ∈ t.2, Named (snake g.name)

/-- The same, of one enum. -/
def EnumNamed (e : Bytes × EnumD) : Prop := Named (camel (qualify e.1 e.2.name)) ∧ ∀ v ∈ e.2.values, Named (ofBytes v)

theorem upper_camel' {s : Bytes} (h : IsDotted s) : Upper (camel s) := GoText.upper_camel h

theorem typeOk_iff {t : Bytes × List FieldD} (h : TypeWf t) : TypeNamed t ↔
    (camelCase t.1).map BitVec.toNat ∉ Package.Rust.keywords ∧ ∀ g ∈ t.2, snakeCase (g.name.map BitVec.toNat) ∉ Package.Rust.keywords := by
  constructor
  · rintro ⟨h1, h2⟩
    exact ⟨fun hk => h1.1 ((keyword_iff _).mpr hk), fun g hg hk => (h2 g hg).1 ((snake_keyword _).mpr hk)⟩
  · rintro ⟨h1, h2⟩
    exact ⟨upper_named (upper_camel' h.name) fun hk => h1 ((keyword_iff _).mp hk),
      fun g hg => snake_named (h.fields g hg).name fun hk => h2 g hg ((snake_keyword _).mp hk)⟩

theorem enumOk_iff {e : Bytes × EnumD} (h : (e.1 = [] ∨ IsDotted e.1) ∧ EnumWf e.2) : EnumNamed e ↔
    (camelCase (qualify e.1 e.2.name)).map BitVec.toNat ∉ Package.Rust.keywords ∧ ∀ v ∈ e.2.values, v.map BitVec.toNat ∉ Package.Rust.keywords := by
  constructor
  · rintro ⟨h1, h2⟩
    exact ⟨fun hk => h1.1 ((keyword_iff _).mpr hk), fun g hg hk => (h2 g hg).1 ((keyword_iff _).mpr hk)⟩
  · rintro ⟨h1, h2⟩
    exact ⟨upper_named (upper_camel' (.qualify h.1 h.2.1)) fun hk => h1 ((keyword_iff _).mp hk),
      fun v hv => ident_named (h.2.2 v hv) fun hk => h2 v hv ((keyword_iff _).mp hk)⟩

theorem noKeywords_iff {f : FileD} (h : FileWf f) : NoKeywords f ↔ (∀ t ∈ f.types, TypeNamed t) ∧ ∀ e ∈ f.enumTypes, EnumNamed e := by
  constructor
  · intro hk
    exact ⟨fun t ht => (typeOk_iff (h.typeWf ht)).mpr ⟨hk.types t ht, hk.fields t ht⟩,
      fun e he => (enumOk_iff (h.enumWf he)).mpr ⟨hk.enums e he, hk.values e he⟩⟩
  · rintro ⟨h1, h2⟩
    exact ⟨fun t ht => ((typeOk_iff (h.typeWf ht)).mp (h1 t ht)).1, fun t ht => ((typeOk_iff (h.typeWf ht)).mp (h1 t ht)).2,
      fun e he => ((enumOk_iff (h.enumWf he)).mp (h2 e he)).1, fun e he => ((enumOk_iff (h.enumWf he)).mp (h2 e he)).2⟩

theorem ok_importItems (d : Package.Rust.Dependencies) : ∀ i ∈ importItems d, ItemOk i := by
  have h1 : ∀ p : List Ident, PathOk p → ItemOk (.use1 p) := fun p h => h
  refine forall_append (forall_append (forall_cons (h1 _ (by decide +kernel)) (forall_cons ⟨by decide +kernel, by decide +kernel, by decide +kernel⟩ forall_nil)) ?_) ?_
  · split
    · exact forall_cons (h1 _ (by decide +kernel)) (forall_cons (h1 _ (by decide +kernel)) forall_nil)
    · exact forall_nil
  · split
    · exact forall_cons (h1 _ (by decide +kernel)) forall_nil
    · exact forall_nil

theorem ok_traitItems : ∀ i ∈ traitItems, ItemOk i :=
  forall_cons ⟨by decide +kernel, ok_encodeSig⟩ (forall_cons ⟨by decide +kernel, ok_decodeSig (by decide +kernel) (ok_tname (by decide +kernel))⟩ forall_nil)

theorem ok_enumItem {e : Bytes × EnumD} (h : EnumNamed e) : ItemOk (enumItem e.1 e.2) := by
  refine ⟨by decide +kernel, h.1, ?_⟩
  intro v hv
  obtain ⟨i, hi, rfl⟩ := List.mem_mapIdx.mp hv
  exact h.2 _ (List.getElem_mem ..)

theorem ok_typeItems (privacy : Bytes) {t : Bytes × List FieldD} (hw : TypeWf t) (h : TypeNamed t) : ∀ i ∈ typeItems privacy t, ItemOk i := by
  refine forall_cons ⟨h.1, ?_⟩ (forall_cons (ok_encodeImpl h.1 h.2) (forall_cons (ok_decodeImpl h.1 h.2 hw.fields) forall_nil))
  intro p hp
  obtain ⟨g, hg, rfl⟩ := List.mem_map.mp hp
  exact ⟨h.2 g hg, ok_fieldTy (hw.fields g hg)⟩

/-! ## Keywords are refused -/

theorem classify_bad {n : Ident} (h : ¬ Named n) : (∀ x, classify (.word n) ≠ .ident x) ∧ classify (.word n) ≠ .rbrace ∧ classify (.word n) ≠ .lparen := by
  have hk : ∀ w ∈ keywords, (match classify (.word w) with | .ident _ => false | .rbrace => false | .lparen => false | _ => true) = true := by decide +kernel
  by_cases hm : n ∈ keywords
  · have := hk n hm
    refine ⟨?_, ?_, ?_⟩
    · intro x hx; rw [hx] at this; cases this
    · intro hx; rw [hx] at this; cases this
    · intro hx; rw [hx] at this; cases this
  · have : n = go!"_" := Classical.byContradiction fun hn => h ⟨hm, hn⟩
    subst this
    have : classify (.word go!"_") = .underscore := by decide +kernel
    rw [this]
    simp

theorem variants_bad (vs : List (Ident × Frag)) (h : ∃ v ∈ vs, ¬ Named v.1) (rest : List PTok) :
    variants (ptoks (vs.flatMap (fun v => [.word v.1, .op go!"=", .num v.2, .op go!","])) ++ .rbrace :: rest) = none := by
  induction vs with
  | nil => obtain ⟨v, hv, _⟩ := h; cases hv
  | cons v vs ih =>
    simp only [List.flatMap_cons, ptoks_append, ptoks_cons, ptoks_nil, c_assign, c_num, c_comma, List.cons_append, List.nil_append]
    by_cases hv : Named v.1
    · obtain ⟨w, hw, hb⟩ := h
      rcases List.mem_cons.mp hw with rfl | hw
      · exact absurd hv hb
      · rw [classify_ident hv, variants, ih ⟨w, hw, hb⟩]
    · have hc := classify_bad hv
      generalize classify (.word v.1) = c at hc
      rw [variants]
      · intro _ h; exact hc.2.1 (by injection h)
      · intro _ _ _ h; exact hc.1 _ (by injection h)

theorem visibility_bad (v : Vis) (c : PTok) (hc : (∀ x, c ≠ .ident x) ∧ c ≠ .rbrace ∧ c ≠ .lparen) (ts : List PTok) :
    (∀ r, ptoks v.toks ++ c :: .colon :: ts ≠ .rbrace :: r) ∧
    ∀ y r, (visibility (ptoks v.toks ++ c :: .colon :: ts)).2 ≠ .ident y :: .colon :: r := by
  cases v with
  | priv =>
    refine ⟨fun r h => hc.2.1 (by simp [Vis.toks] at h; exact h.1), ?_⟩
    intro y r
    cases c <;> simp_all [Vis.toks, visibility]
  | pub =>
    refine ⟨by intro r; simp [Vis.toks], ?_⟩
    intro y r
    cases c <;> simp_all [Vis.toks, visibility]
  | crate =>
    refine ⟨by intro r; simp [Vis.toks], ?_⟩
    intro y r
    cases c <;> simp_all [Vis.toks, visibility]

theorem members_bad (fs : List (Vis × Ident × Ty)) (ht : ∀ f ∈ fs, TyOk f.2.2) (h : ∃ f ∈ fs, ¬ Named f.2.1) (rest : List PTok) : ∀ n, (memberToks fs).length + 1 ≤ n →
    members n (ptoks (memberToks fs) ++ .rbrace :: rest) = none := by
  induction fs with
  | nil => obtain ⟨v, hv, _⟩ := h; cases hv
  | cons f fs ih =>
    intro n hn
    rw [memberToks_cons] at hn ⊢
    simp only [List.length_append, List.length_cons] at hn
    obtain ⟨n, rfl⟩ : ∃ m, n = m + 1 := ⟨n - 1, by omega⟩
    by_cases hv : Named f.2.1
    · obtain ⟨w, hw, hb⟩ := h
      rcases List.mem_cons.mp hw with rfl | hw
      · exact absurd hv hb
      · have h2 := ih (fun b hb => ht b (List.mem_cons_of_mem _ hb)) ⟨w, hw, hb⟩ n (by omega)
        simp only [ptoks_append, ptoks_cons, c_colon, c_comma, classify_ident hv, List.cons_append, List.append_assoc]
        rw [members_other _ _ (visibility_rbrace _ _ _)]
        simp only [visibility_reads, type_reads f.2.2 (ht f (List.mem_cons_self ..)) (.comma :: (ptoks (memberToks fs) ++ .rbrace :: rest)) (stopTy_of _ (by simp)) n (by omega), h2]
    · have hb := visibility_bad f.1 _ (classify_bad hv) (ptoks f.2.2.toks ++ .comma :: (ptoks (memberToks fs) ++ .rbrace :: rest))
      simp only [ptoks_append, ptoks_cons, c_colon, c_comma, List.cons_append, List.append_assoc]
      rw [members_other _ _ hb.1]
      generalize visibility _ = p at hb
      split
      · rename_i x us heq; exact absurd heq (hb.2 _ _)
      · rfl

/-- An item that is refused. -/
def Refused (i : Item) : Prop := ∀ rest n, 6 * i.toks.length + 12 ≤ n → item n (ptoks i.toks ++ rest) = none

theorem struct_refused {x : Ident} {fs : List (Vis × Ident × Ty)} (ht : ∀ f ∈ fs, TyOk f.2.2) (h : ¬ Named x ∨ ∃ f ∈ fs, ¬ Named f.2.1) : Refused (.struct x fs) := by
  intro rest n hn
  have he : (Item.struct x fs).toks = .word go!"pub" :: .word go!"struct" :: .word x :: .op go!"{" :: memberToks fs ++ [.op go!"}"] := rfl
  rw [he] at hn ⊢
  simp only [List.length_append, List.length_cons] at hn
  simp only [ptoks_cons, ptoks_append, ptoks_nil, c_pub, c_struct, c_lbrace, c_rbrace, List.cons_append, List.append_assoc, List.nil_append]
  by_cases hx : Named x
  · rw [classify_ident hx]
    unfold item
    simp only [members_bad fs ht (h.resolve_left (fun h => h hx)) rest n (by omega)]
  · have hc := classify_bad hx
    generalize classify (.word x) = c at hc
    obtain ⟨n, rfl⟩ : ∃ m, n = m + 1 := ⟨n - 1, by omega⟩
    cases c <;> first | exact absurd rfl (hc.1 _) | rfl

theorem enum_refused {as : List (Ident × List Ident)} {x : Ident} {vs : List (Ident × Frag)} (ha : ∀ a ∈ as, Named a.1 ∧ a.2 ≠ [] ∧ ∀ i ∈ a.2, Named i) (hne : as ≠ [])
    (h : ¬ Named x ∨ ∃ v ∈ vs, ¬ Named v.1) : Refused (.enum as x vs) := by
  intro rest n hn
  simp only [Item.toks, List.length_append, List.length_cons] at hn
  have hl : as.length ≤ (as.flatMap (fun a => .op go!"#" :: .op go!"[" :: .word a.1 :: .op go!"(" :: commaToks a.2 ++ [.op go!")", .op go!"]"])).length := by
    clear hn ha hne
    induction as with
    | nil => simp
    | cons a as ih => simp only [List.flatMap_cons, List.length_append, List.length_cons] at ih ⊢; omega
  have ha := attributes_read as ha (.kpub :: .kenum :: classify (.word x) :: .lbrace ::
    (ptoks (vs.flatMap (fun v => [.word v.1, .op go!"=", .num v.2, .op go!","])) ++ .rbrace :: rest)) (by simp) n (by omega)
  have hs : (∃ r, ptoks (Item.enum as x vs).toks ++ rest = .hash :: r) ∨ ∃ r, ptoks (Item.enum as x vs).toks ++ rest = .kpub :: .kenum :: r := by
    cases as with
    | nil => exact absurd rfl hne
    | cons a as => left; exact ⟨_, by simp only [Item.toks, List.flatMap_cons, ptoks_cons, c_hash, List.cons_append]; rfl⟩
  rw [item_enum _ _ hs]
  simp only [Item.toks, ptoks_cons, ptoks_append, ptoks_nil, c_pub, c_enum, c_lbrace, c_rbrace, List.cons_append, List.append_assoc, List.nil_append] at ha ⊢
  by_cases hx : Named x
  · have hv := variants_bad vs (h.resolve_left (fun h => h hx)) rest
    rw [classify_ident hx] at ha ⊢
    simp only [ha, hv]
  · have hc := classify_bad hx
    generalize classify (.word x) = c at ha hc
    rw [ha]
    split
    · rename_i heq; cases heq; exact absurd rfl (hc.1 _)
    · rfl

theorem parse_refused (pre : List Item) (i : Item) (post : List Item) (h : ∀ j ∈ pre, ItemOk j) (hi : Refused i) : parse (file (pre ++ i :: post)) = none := by
  have hf : file (pre ++ i :: post) = file pre ++ (i.toks ++ file post) := by simp [file]
  have hl := file_length pre
  have h1 := item_nonempty i
  have hlen : (file (pre ++ i :: post)).length = (file pre).length + (i.toks.length + (file post).length) := by rw [hf]; simp
  have h2 := items_append (6 * (file (pre ++ i :: post)).length + 16) pre h (by omega) (ptoks i.toks ++ ptoks (file post)) ((file (pre ++ i :: post)).length + 1 - pre.length)
  rw [show (file (pre ++ i :: post)).length + 1 - pre.length + pre.length = (file (pre ++ i :: post)).length + 1 by omega] at h2
  have h3 : items (6 * (file (pre ++ i :: post)).length + 16) ((file (pre ++ i :: post)).length + 1 - pre.length) (ptoks i.toks ++ ptoks (file post)) = none := by
    rw [show (file (pre ++ i :: post)).length + 1 - pre.length = ((file (pre ++ i :: post)).length - pre.length) + 1 by omega, items]
    · rw [hi _ _ (by omega)]
    · intro h4
      have := congrArg List.length h4
      simp only [List.length_append, ptoks_length, List.length_nil] at this
      omega
  unfold parse
  rw [h3] at h2
  rw [show (file (pre ++ i :: post)).map classify = ptoks (file pre) ++ (ptoks i.toks ++ ptoks (file post)) by rw [hf]; simp [ptoks], h2]
  rfl

/-- A part whose items can be read. -/
def PartOk : Part → Prop
  | .head _ => True
  | .enum e => EnumNamed e
  | .type t => TypeNamed t

theorem split_first {α : Type} (P : α → Prop) (l : List α) (h : ¬ ∀ a ∈ l, P a) : ∃ pre a post, l = pre ++ a :: post ∧ (∀ b ∈ pre, P b) ∧ ¬ P a := by
  induction l with
  | nil => exact absurd (by simp) h
  | cons a l ih =>
    by_cases ha : P a
    · obtain ⟨pre, b, post, rfl, hp, hb⟩ := ih fun hl => h (forall_cons ha hl)
      exact ⟨a :: pre, b, post, rfl, forall_cons ha hp, hb⟩
    · exact ⟨[], a, l, rfl, by simp, ha⟩

theorem parts_ok {d : Package.Rust.Dependencies} {f : FileD} (h : FileWf f) : (∀ p ∈ parts d f, PartOk p) ↔ NoKeywords f := by
  rw [noKeywords_iff h]
  constructor
  · intro hp
    exact ⟨fun t ht => hp _ (mem_parts_type.mpr ht), fun e he => hp _ (mem_parts_enum.mpr he)⟩
  · rintro ⟨h1, h2⟩ p hp
    cases p with
    | head i => trivial
    | enum e => exact h2 e (mem_parts_enum.mp hp)
    | type t => exact h1 t (mem_parts_type.mp hp)

theorem part_items {d : Package.Rust.Dependencies} {f : FileD} (h : FileWf f) (privacy : Bytes) {p : Part} (hp : p ∈ parts d f) (ho : PartOk p) : ∀ i ∈ p.items privacy, ItemOk i := by
  cases p with
  | head i =>
    refine forall_cons ?_ forall_nil
    rcases mem_parts_head hp with hi | hi
    · exact ok_importItems d i hi
    · exact ok_traitItems i hi
  | enum e => exact forall_cons (ok_enumItem ho) forall_nil
  | type t => exact ok_typeItems privacy (h.typeWf (mem_parts_type.mp hp)) ho

theorem part_refused {d : Package.Rust.Dependencies} {f : FileD} (h : FileWf f) (privacy : Bytes) {p : Part} (hp : p ∈ parts d f) (ho : ¬ PartOk p) :
    ∃ i rest, p.items privacy = i :: rest ∧ Refused i := by
  cases p with
  | head i => exact absurd trivial ho
  | enum e =>
    refine ⟨_, [], rfl, enum_refused (by decide +kernel) (by simp) ?_⟩
    refine Classical.byContradiction fun hn => ho ?_
    rw [not_or] at hn
    refine ⟨Classical.not_not.mp hn.1, fun v hv => Classical.byContradiction fun hb => hn.2 ?_⟩
    obtain ⟨i, hi, rfl⟩ := List.getElem_of_mem hv
    exact ⟨_, List.mem_mapIdx.mpr ⟨i, hi, rfl⟩, hb⟩
  | type t =>
    have hw := h.typeWf (mem_parts_type.mp hp)
    refine ⟨_, _, rfl, struct_refused ?_ ?_⟩
    · intro p hp
      obtain ⟨g, hg, rfl⟩ := List.mem_map.mp hp
      exact ok_fieldTy (hw.fields g hg)
    · refine Classical.byContradiction fun hn => ho ?_
      rw [not_or] at hn
      refine ⟨Classical.not_not.mp hn.1, fun g hg => Classical.byContradiction fun hb => hn.2 ?_⟩
      exact ⟨_, List.mem_map.mpr ⟨g, hg, rfl⟩, hb⟩

/-- The tokens of the program are read as the program, if no name is a keyword, and refused otherwise. -/
theorem parse_program {f : FileD} (h : FileWf f) (privacy : Bytes) (d : Package.Rust.Dependencies) :
    (NoKeywords f → parse (file (program privacy d f)) = some (program privacy d f)) ∧ (¬ NoKeywords f → parse (file (program privacy d f)) = none) := by
  constructor
  · intro hk
    have := (parts_ok (d := d) h).mpr hk
    refine parse_file _ ?_
    rw [program_parts]
    intro i hi
    obtain ⟨p, hp, hi⟩ := List.mem_flatMap.mp hi
    exact part_items h privacy hp (this p hp) i hi
  · intro hk
    obtain ⟨pre, p, post, he, hpre, hbad⟩ := split_first PartOk (parts d f) (fun hp => hk ((parts_ok h).mp hp))
    obtain ⟨i, rest, hi, hr⟩ := part_refused h privacy (p := p) (by rw [he]; simp) hbad
    rw [program_parts, he, List.flatMap_append, List.flatMap_cons, hi, List.cons_append]
    refine parse_refused _ i _ ?_ hr
    intro j hj
    obtain ⟨q, hq, hj⟩ := List.mem_flatMap.mp hj
    exact part_items h privacy (by rw [he]; exact List.mem_append_left _ hq) (hpre q hq) j hj

end RustText
