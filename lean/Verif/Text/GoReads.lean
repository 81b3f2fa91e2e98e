import Verif.Text.ParseFacts
import Verif.Text.GoLookup

/-!
# The generated program can be read back
-/

namespace GoText

open Utils Text GoAst GoParse
open Gen (PKind)
open Package (EnumD qualify)

variable {lib : Lib}

instance (n : Ident) : Decidable (Named n) := inferInstanceAs (Decidable (n ∉ keywords))

theorem upper_not_lower : ∀ b : Byte, isUpper b = true → isLower b = false := by decide +kernel

theorem Upper.named {n : Ident} (h : Upper n) : Named n := by
  intro hm
  obtain ⟨b, r, rfl, hb⟩ := h
  obtain ⟨c, hc, hl⟩ := keyword_lower _ hm _ (List.mem_cons_self ..)
  cases hc
  rw [upper_not_lower b hb] at hl
  cases hl

theorem Upper.ne_make {n : Ident} (h : Upper n) : n ≠ go!"make" := upper_ne h ⟨_, _, rfl, by decide⟩

theorem ok_block {ss : List Stmt} (h : ∀ s ∈ ss, StmtOk true s) : StmtOk false (block ss) := by
  induction ss with
  | nil => rfl
  | cons s ss ih => exact ⟨rfl, h s (List.mem_cons_self ..), ih fun t ht => h t (List.mem_cons_of_mem _ ht)⟩

theorem block_ne_skip {ss : List Stmt} (h : ss ≠ []) : block ss ≠ .skip := by
  cases ss with
  | nil => exact absurd rfl h
  | cons s ss => intro h; cases h

/-- A variable. -/
theorem ok_var {n : Ident} (l : Level) (h : Named n ∧ n ≠ go!"make") : ExprOk l (.var n) := by cases l <;> exact h

theorem ok_upper {n : Ident} (l : Level) (h : Upper n) : ExprOk l (.var n) := ok_var l ⟨h.named, h.ne_make⟩

theorem ok_sel {e : Expr} {n : Ident} (l : Level) (h : ExprOk .post e) (hn : Named n) : ExprOk l (.sel e n) := by cases l <;> exact ⟨h, hn⟩
theorem ok_call0 {e : Expr} (l : Level) (h : ExprOk .post e) : ExprOk l (.call0 e) := by cases l <;> exact h
theorem ok_call1 {e a : Expr} (l : Level) (h : ExprOk .post e) (ha : ExprOk .full a) : ExprOk l (.call1 e a) := by cases l <;> exact ⟨h, ha⟩
theorem ok_call2 {e a b : Expr} (l : Level) (h : ExprOk .post e) (ha : ExprOk .full a) (hb : ExprOk .full b) : ExprOk l (.call2 e a b) := by
  cases l <;> exact ⟨h, ha, hb⟩
theorem ok_call3 {e a b c : Expr} (l : Level) (h : ExprOk .post e) (ha : ExprOk .full a) (hb : ExprOk .full b) (hc : ExprOk .full c) :
    ExprOk l (.call3 e a b c) := by cases l <;> exact ⟨h, ha, hb, hc⟩
theorem ok_index {e a : Expr} (l : Level) (h : ExprOk .post e) (ha : ExprOk .full a) : ExprOk l (.index e a) := by cases l <;> exact ⟨h, ha⟩

theorem ok_x (l : Level) : ExprOk l vx := ok_var l (by decide +kernel)
theorem ok_b (l : Level) : ExprOk l vb := ok_var l (by decide +kernel)
theorem ok_d (l : Level) : ExprOk l vd := ok_var l (by decide +kernel)
theorem ok_v (l : Level) : ExprOk l vv := ok_var l (by decide +kernel)
theorem ok_k (l : Level) : ExprOk l vk := ok_var l (by decide +kernel)
theorem ok_i (l : Level) : ExprOk l vi := ok_var l (by decide +kernel)
theorem ok_err (l : Level) : ExprOk l verr := ok_var l (by decide +kernel)
theorem ok_nil (l : Level) : ExprOk l vnil := ok_var l (by decide +kernel)
theorem ok_size (l : Level) : ExprOk l vsize := ok_var l (by decide +kernel)
theorem ok_polyglot {n : Ident} (l : Level) (h : Named n) : ExprOk l (polyglot n) := ok_sel l (ok_var _ (by decide +kernel)) h
theorem ok_uint32 {e : Expr} (l : Level) (h : ExprOk .full e) : ExprOk l (uint32 e) := ok_call1 l (ok_var _ (by decide +kernel)) h
theorem ok_len {e : Expr} (l : Level) (h : ExprOk .full e) : ExprOk l (len e) := ok_call1 l (ok_var _ (by decide +kernel)) h
theorem ok_encoder (l : Level) : ExprOk l encoder := ok_call1 l (ok_polyglot _ (by decide +kernel)) (ok_b _)
theorem ok_xf {f : Ident} (l : Level) (h : Named f) : ExprOk l (xf f) := ok_sel l (ok_x _) h
theorem ok_kind (l : Level) (k : PKind) : ExprOk l (kindConst k) := by
  cases k <;> exact ok_polyglot l (by decide +kernel)
theorem ok_method (k : PKind) : Named (method k) := by cases k <;> decide +kernel

theorem ok_check : StmtOk true check :=
  ⟨rfl, ⟨ok_err _, ok_nil _⟩, ok_block (by intro s hs; rw [List.mem_singleton] at hs; subst hs; exact ⟨rfl, ok_err _⟩)⟩

theorem ok_scalarTy (k : PKind) : Ty.Ok (scalarTy k) := by cases k <;> (simp only [scalarTy, Ty.Ok]; decide +kernel)

theorem ok_elemTy {k : PKind} {t : Ident} (h : k = .message ∨ k = .enum → Named t) : Ty.Ok (elemTy k t) := by
  unfold elemTy
  split
  · exact h (.inr rfl)
  · exact h (.inl rfl)
  · exact ok_scalarTy _

theorem forall_cons {α : Type} {p : α → Prop} {a : α} {l : List α} (h : p a) (hl : ∀ x ∈ l, p x) : ∀ x ∈ a :: l, p x := by
  intro x hx
  rcases List.mem_cons.mp hx with rfl | hx
  · exact h
  · exact hl x hx

theorem forall_nil {α : Type} {p : α → Prop} : ∀ x ∈ ([] : List α), p x := by intro x hx; cases hx

theorem forall_append {α : Type} {p : α → Prop} {a b : List α} (h : ∀ x ∈ a, p x) (hl : ∀ x ∈ b, p x) : ∀ x ∈ a ++ b, p x := by
  intro x hx
  rcases List.mem_append.mp hx with hx | hx
  · exact h x hx
  · exact hl x hx

/-! ## Encoders -/

theorem ok_encSlice {f : Ident} (k : PKind) (h : Named f) : ∀ s ∈ encSlice f k, StmtOk true s := by
  refine forall_cons ?_ (forall_cons ?_ forall_nil)
  · exact ⟨rfl, ok_call2 _ (ok_sel _ (ok_encoder _) (by decide +kernel)) (ok_uint32 _ (ok_len _ (ok_xf _ h))) (ok_kind _ k)⟩
  · refine ⟨rfl, by decide +kernel, by decide +kernel, ok_xf _ h, ok_block (forall_cons ⟨rfl, ?_⟩ forall_nil)⟩
    split
    · exact ok_call1 _ (ok_sel _ (ok_v _) (by decide +kernel)) (ok_b _)
    · exact ok_call1 _ (ok_sel _ (ok_encoder _) (ok_method k)) (ok_v _)

theorem ok_encEntry {e : Expr} (k : PKind) (h : ∀ l, ExprOk l e) : StmtOk true (encEntry e k) := by
  refine ⟨rfl, ?_⟩
  split
  · exact ok_call1 _ (ok_sel _ (h _) (by decide +kernel)) (ok_b _)
  · refine ok_call1 _ (ok_sel _ (ok_encoder _) (ok_method k)) ?_
    split
    · exact ok_uint32 _ (h _)
    · exact h _

theorem ok_params {t : Ident} (h : Named t) : (∀ x u, some (go!"x", Ty.ptr (.name t)) = some (x, u) → Named x ∧ Ty.Ok u) ∧
    (∀ x u, some (go!"x", Ty.name t) = some (x, u) → Named x ∧ Ty.Ok u) := by
  refine ⟨?_, ?_⟩ <;> (intro x u h1; cases h1; exact ⟨by decide +kernel, h⟩)

theorem ok_buffer : ∀ p ∈ [((go!"b", .ptr (.qual go!"polyglot" go!"Buffer")) : Ident × Ty)], Named p.1 ∧ Ty.Ok p.2 :=
  forall_cons ⟨by decide +kernel, by decide +kernel, by decide +kernel⟩ forall_nil

theorem ok_terror : ∀ t, some terror = some t → Ty.Ok t := by
  intro t h; cases h; unfold terror Ty.Ok; decide +kernel

theorem ok_encodeDecl {full : Bytes} {fs : List FieldD} (hn : Named (camel full)) (h : ∀ g ∈ fs, Named (camel g.name)) : DeclOk (encodeDecl full fs) := by
  refine ⟨(ok_params hn).1, by decide +kernel, ok_buffer, (by intro t h; cases h), ?_⟩
  refine ok_block (forall_cons ⟨rfl, ⟨ok_x _, ok_nil _⟩, ok_block (forall_cons ⟨rfl, ok_call0 _ (ok_sel _ (ok_encoder _) (by decide +kernel))⟩ forall_nil), ?_, ?_⟩ forall_nil)
  · refine ok_block (forall_append (forall_append ?_ ?_) ?_)
    · split
      · exact forall_nil
      · refine forall_cons ⟨rfl, ?_⟩ forall_nil
        have : ∀ (vs : List FieldD) (e : Expr), (∀ g ∈ vs, Named (camel g.name)) → ExprOk .post e → ExprOk .post (vs.foldl (fun e f => encValue (camel f.name) f.kind e) e) := by
          intro vs
          induction vs with
          | nil => intro e _ he; exact he
          | cons g vs ih =>
            intro e hg he
            refine ih _ (fun g' hg' => hg g' (List.mem_cons_of_mem _ hg')) ?_
            refine ok_call1 _ (ok_sel _ he (ok_method _)) ?_
            have := hg g (List.mem_cons_self ..)
            split
            · exact ok_uint32 _ (ok_xf _ this)
            · exact ok_xf _ this
        have h2 := this (fs.filter FieldD.isValue) encoder (fun g hg => h g (List.mem_filter.mp hg).1) (ok_encoder _)
        generalize List.foldl (fun e f => encValue (camel f.name) f.kind e) encoder (List.filter FieldD.isValue fs) = e at h2
        cases e <;> first | exact h2 | exact h2.elim
    · intro s hs
      obtain ⟨g, hg, hs⟩ := List.mem_flatMap.mp hs
      exact ok_encSlice _ (h g (List.mem_filter.mp hg).1) s hs
    · intro s hs
      obtain ⟨g, hg, rfl⟩ := List.mem_map.mp hs
      exact ⟨rfl, ok_call1 _ (ok_sel _ (ok_xf _ (h g (List.mem_filter.mp hg).1)) (by decide +kernel)) (ok_b _)⟩
  · intro ht
    simp only [Bool.and_eq_true, Bool.not_eq_true', List.isEmpty_eq_false_iff] at ht
    rw [if_neg ht.1.1]
    exact block_ne_skip (by simp)

theorem ok_encodeMapFunc {t : Ident} (kk k : PKind) (hn : Named t) : DeclOk (encodeMapFunc t kk k) := by
  refine ⟨(ok_params hn).2, by decide +kernel, ok_buffer, (by intro t h; cases h), ?_⟩
  refine ok_block (forall_cons ⟨rfl, ⟨ok_x _, ok_nil _⟩, ok_block (forall_cons ⟨rfl, ?_⟩ forall_nil), ok_block (forall_cons ⟨rfl, ?_⟩ (forall_cons ?_ forall_nil)), by simp⟩ forall_nil)
  · exact ok_call3 _ (ok_sel _ (ok_encoder _) (by decide +kernel)) trivial (ok_kind _ _) (ok_kind _ _)
  · exact ok_call3 _ (ok_sel _ (ok_encoder _) (by decide +kernel)) (ok_uint32 _ (ok_len _ (ok_x _))) (ok_kind _ _) (ok_kind _ _)
  · exact ⟨rfl, by decide +kernel, by decide +kernel, ok_x _, ok_block (forall_cons (ok_encEntry _ ok_k) (forall_cons (ok_encEntry _ ok_v) forall_nil))⟩

/-! ## Decoders -/

theorem ok_tuint32 : Ty.Ok tuint32 := by unfold tuint32 Ty.Ok; decide +kernel

theorem ok_decValue {f t : Ident} (k : PKind) (hf : Upper f) (ht : k = .enum → Upper t) : ∀ s ∈ decValue f k t, StmtOk true s := by
  refine forall_append ?_ (forall_cons ok_check forall_nil)
  split
  · have ha : ExprOk .full (Lib.pick vnil (xf f)) := by
      cases lib
      · exact ok_nil _
      · exact ok_xf _ hf.named
    exact forall_cons ⟨rfl, ok_xf _ hf.named, ok_err _, ok_call1 _ (ok_sel _ (ok_d _) (ok_method _)) ha⟩ forall_nil
  · have hu := hf.append go!"Temp"
    refine forall_cons ⟨rfl, hu.named, ok_tuint32⟩ (forall_cons ⟨rfl, ok_upper _ hu, ok_err _, ok_call0 _ (ok_sel _ (ok_d _) (ok_method _))⟩ (forall_cons ?_ forall_nil))
    exact ⟨rfl, ok_xf _ hf.named, ok_call1 _ (ok_upper _ (ht rfl)) (ok_upper _ hu)⟩
  · exact forall_cons ⟨rfl, ok_xf _ hf.named, ok_err _, ok_call0 _ (ok_sel _ (ok_d _) (ok_method _))⟩ forall_nil

theorem ok_decSlice {f t : Ident} (k : PKind) {et : Ty} (hf : Upper f) (he : Ty.Ok et) : ∀ s ∈ decSlice f k et t, StmtOk true s := by
  refine forall_cons ⟨rfl, ok_size _, ok_err _, ok_call1 _ (ok_sel _ (ok_d _) (by decide +kernel)) (ok_kind _ _)⟩ (forall_cons ok_check (forall_cons ?_ (forall_cons ?_ forall_nil)))
  · exact ⟨rfl, ⟨ok_uint32 _ (ok_len _ (ok_xf _ hf.named)), ok_size _⟩, ok_block (forall_cons ⟨rfl, ok_xf _ hf.named, he, ok_size _⟩ forall_nil)⟩
  · refine ⟨rfl, by decide +kernel, ok_uint32 _ trivial, ⟨ok_i _, ok_size _⟩, ok_block (forall_append ?_ (forall_cons ok_check forall_nil))⟩
    have hix : ∀ l, ExprOk l (.index (xf f) vi) := fun l => ok_index l (ok_xf _ hf.named) (ok_i _)
    split
    · refine forall_cons ⟨rfl, ⟨hix _, ok_nil _⟩, ok_block (forall_cons ⟨rfl, hix _, ok_call0 _ (ok_upper _ (upper_new _))⟩ forall_nil)⟩ (forall_cons ?_ forall_nil)
      exact ⟨rfl, ok_err _, ok_call1 _ (ok_sel _ (hix _) (by decide +kernel)) (ok_d _)⟩
    · exact forall_cons ⟨rfl, hix _, ok_err _, ok_call0 _ (ok_sel _ (ok_d _) (ok_method _))⟩ forall_nil

theorem ok_decMessageField {o : Bytes} {g : FieldD} (hf : Upper (camel g.name)) : ∀ s ∈ decMessageField o g, StmtOk true s := by
  unfold decMessageField
  split
  · have hu := hf.append go!"Size"
    refine forall_cons ⟨rfl, ok_call0 .prim (ok_sel _ (ok_d _) (by decide +kernel)), ok_block (forall_cons ?_ (forall_cons ok_check (forall_cons ?_ (forall_cons ?_ (forall_cons ok_check forall_nil)))))⟩ forall_nil
    · exact ⟨rfl, ok_upper _ hu, ok_err _, ok_call2 _ (ok_sel _ (ok_d _) (by decide +kernel)) (ok_kind _ _) (ok_kind _ _)⟩
    · exact ⟨rfl, ok_xf _ hf.named, ok_call1 _ (ok_upper _ (upper_new _)) (ok_upper _ hu)⟩
    · exact ⟨rfl, ok_err _, ok_call2 _ (ok_sel _ (ok_xf _ hf.named) (by decide +kernel)) (ok_d _) (ok_upper _ hu)⟩
  · have hnew : StmtOk true (.assign (xf (camel g.name)) (.call0 (.var (go!"New" ++ camel g.type)))) := ⟨rfl, ok_xf _ hf.named, ok_call0 _ (ok_upper _ (upper_new _))⟩
    have hdec : StmtOk true (.assign verr (.call1 (.sel (xf (camel g.name)) go!"decode") vd)) :=
      ⟨rfl, ok_err _, ok_call1 _ (ok_sel _ (ok_xf _ hf.named) (by decide +kernel)) (ok_d _)⟩
    cases lib
    · refine forall_cons ⟨rfl, ⟨ok_xf _ hf.named, ok_nil _⟩, ok_block (forall_cons hnew forall_nil)⟩ (forall_cons hdec (forall_cons ok_check forall_nil))
    · refine forall_cons ⟨rfl, ok_call0 .prim (ok_sel _ (ok_d _) (by decide +kernel)), ok_block (forall_cons hnew (forall_cons hdec (forall_cons ok_check forall_nil)))⟩ forall_nil

theorem ok_tdecoder : Named go!"d" ∧ Ty.Ok tdecoder := by cases lib <;> exact ⟨by decide +kernel, by decide +kernel, by decide +kernel⟩

theorem ok_newElements {fs : List FieldD} (h : ∀ g ∈ fs, Named (camel g.name)) : ∀ e ∈ newElements fs, Named e.1 ∧ Named e.2 := by
  cases lib
  · intro e he
    obtain ⟨g, hg, rfl⟩ := List.mem_map.mp he
    exact ⟨h g (List.mem_filter.mp hg).1, (upper_new _).named⟩
  · exact forall_nil

theorem ok_decodeDecl {full : Bytes} {fs : List FieldD} (hn : Named (camel full)) (h : ∀ g ∈ fs, g.Wf) : DeclOk (decodeDecl full fs) := by
  have hu : ∀ g ∈ fs, Upper (camel g.name) := fun g hg => upper_camel (.one (h g hg).name)
  refine ⟨(ok_params hn).1, by decide +kernel, forall_cons ok_tdecoder forall_nil, ok_terror, ok_block ?_⟩
  refine forall_append (forall_append (forall_append (forall_append (forall_append (forall_append ?_ ?_) ?_) ?_) ?_) ?_) ?_
  · exact forall_cons ⟨rfl, ok_call0 _ (ok_sel _ (ok_d _) (by decide +kernel)), ok_block (forall_cons ⟨rfl, ok_nil _⟩ forall_nil)⟩ forall_nil
  · split
    · exact forall_cons ⟨rfl, by decide +kernel, ok_terror _ rfl⟩ forall_nil
    · exact forall_nil
  · intro s hs
    obtain ⟨g, hg, hs⟩ := List.mem_flatMap.mp hs
    have hg := (List.mem_filter.mp hg).1
    exact ok_decValue _ (hu g hg) (fun hk => upper_camel ((h g hg).type (.inr hk))) s hs
  · split
    · exact forall_cons ⟨rfl, by decide +kernel, ok_tuint32⟩ forall_nil
    · exact forall_nil
  · intro s hs
    obtain ⟨g, hg, hs⟩ := List.mem_flatMap.mp hs
    obtain ⟨hg, hsl⟩ := List.mem_filter.mp hg
    refine ok_decSlice _ (hu g hg) ?_ s hs
    have hm : g.shape = .many := by
      unfold FieldD.isSlice at hsl
      split at hsl
      · assumption
      · cases hsl
    unfold manyTy
    split
    · rename_i hk
      exact (repeatedEnum_eq g.type) ▸ (isName_elemName ((h g hg).type (.inr hk)) ((h g hg).elem hm hk)).2
    · exact ok_elemTy fun hk => (upper_camel ((h g hg).type hk)).named
  · intro s hs
    obtain ⟨g, hg, hs⟩ := List.mem_flatMap.mp hs
    exact ok_decMessageField (hu g (List.mem_filter.mp hg).1) s hs
  · exact forall_cons ⟨rfl, ok_nil _⟩ forall_nil

theorem ok_decEntry {n : Ident} (k : PKind) {t temp : Ident} (h : Named n ∧ n ≠ go!"make") (ht : k = .enum → Upper t ∧ Upper temp) : ∀ s ∈ decEntry n k t temp, StmtOk true s := by
  unfold decEntry
  split
  · exact forall_cons ⟨rfl, ok_var _ h, ok_call0 _ (ok_upper _ (upper_new _))⟩
      (forall_cons ⟨rfl, ok_err _, ok_call1 _ (ok_sel _ (ok_var _ h) (by decide +kernel)) (ok_d _)⟩ forall_nil)
  · exact forall_cons ⟨rfl, ok_upper _ (ht rfl).2, ok_err _, ok_call0 _ (ok_sel _ (ok_d _) (ok_method _))⟩
      (forall_cons ⟨rfl, ok_var _ h, ok_call1 _ (ok_upper _ (ht rfl).1) (ok_upper _ (ht rfl).2)⟩ forall_nil)
  · exact forall_cons ⟨rfl, ok_var _ h, ok_err _, ok_call0 _ (ok_sel _ (ok_d _) (ok_method _))⟩ forall_nil

theorem ok_decodeMapFunc {m t : Ident} (kk k : PKind) (hm : Named m) (hkk : IsKey kk) (ht : k = .message ∨ k = .enum → Upper t) : DeclOk (decodeMapFunc m kk k t) := by
  have hs : ∀ l, ExprOk l (.var go!"size") := fun l => ok_var l (by decide +kernel)
  refine ⟨(ok_params hm).2, by decide +kernel, forall_cons ok_tdecoder (forall_cons ⟨by decide +kernel, ok_tuint32⟩ forall_nil), ok_terror, ok_block ?_⟩
  refine forall_append (forall_append ?_ ?_) ?_
  · refine forall_cons ⟨rfl, ⟨hs _, trivial⟩, ok_block (forall_cons ⟨rfl, ok_nil _⟩ forall_nil)⟩ (forall_cons ⟨rfl, by decide +kernel, ok_scalarTy _⟩ (forall_cons ⟨rfl, by decide +kernel, ?_⟩ forall_nil))
    exact ok_elemTy fun hk => (ht hk).named
  · split
    · exact forall_cons ⟨rfl, by decide +kernel, ok_tuint32⟩ forall_nil
    · exact forall_nil
  · refine forall_cons ⟨rfl, by decide +kernel, ok_terror _ rfl⟩ (forall_cons ⟨rfl, by decide +kernel, ok_uint32 _ trivial, ⟨ok_i _, hs _⟩, ok_block ?_⟩ (forall_cons ⟨rfl, ok_nil _⟩ forall_nil))
    refine forall_append (forall_append (forall_append ?_ (forall_cons ok_check forall_nil)) ?_) (forall_cons ok_check (forall_cons ⟨rfl, ok_index _ (ok_x _) (ok_k _), ok_v _⟩ forall_nil))
    · exact ok_decEntry _ (by decide +kernel) (by rintro rfl; exact absurd hkk (by decide))
    · exact ok_decEntry _ (by decide +kernel) fun hk => ⟨ht (.inr hk), _, _, rfl, by decide⟩

/-! ## Declarations -/

theorem ok_program {f : FileD} (h : f.Wf) : ∀ d ∈ program f, DeclOk d := by
  rw [program_units]
  refine forall_append ?_ ?_
  · refine forall_cons h.keyword (forall_cons trivial (forall_cons ?_ forall_nil))
    exact forall_cons ⟨by cases lib <;> decide +kernel, ok_call1 _ (ok_sel _ (ok_var _ (by decide +kernel)) (by decide +kernel)) trivial⟩ forall_nil
  · intro d hd
    obtain ⟨u, hu, hd'⟩ := List.mem_flatMap.mp hd
    clear hd
    rcases units_mem hu with ⟨e, he, rfl⟩ | ⟨t, ht, rfl | ⟨g, hg, kk, hs, rfl⟩⟩
    · obtain ⟨h1, h2, h3⟩ := h.enumWf he
      have hu := upper_camel (.qualify h1 h2)
      revert d
      refine forall_cons ⟨hu.named, ok_tuint32⟩ (forall_cons ?_ forall_nil)
      intro x hx
      obtain ⟨i, hi, rfl⟩ := List.mem_mapIdx.mp hx
      exact ⟨(upper_camel (.qualify h1 (h3 _ (List.getElem_mem hi)))).named, ok_call1 _ (ok_upper _ hu) trivial⟩
    · have hw := h.typeWf ht
      have hu := upper_camel hw.name
      have hfs : ∀ g ∈ t.2, Upper (camel g.name) := fun g hg => upper_camel (.one (hw.fields g hg).name)
      revert d
      refine forall_cons ⟨hu.named, ?_⟩ (forall_cons ?_ (forall_cons ?_ (forall_cons ?_ (forall_cons ?_ (forall_cons ?_ forall_nil)))))
      · intro x hx
        obtain ⟨g, hg, rfl⟩ := List.mem_map.mp hx
        refine ⟨(hfs g hg).named, ?_⟩
        have hwg := hw.fields g hg
        unfold fieldTy
        split
        · exact ok_elemTy fun hk => (upper_camel (hwg.type hk)).named
        · rename_i hm
          show Ty.Ok (manyTy _ _)
          unfold manyTy
          split
          · rename_i hk
            exact (repeatedEnum_eq g.type) ▸ (isName_elemName (hwg.type (.inr hk)) (hwg.elem hm hk)).2
          · exact ok_elemTy fun hk => (upper_camel (hwg.type hk)).named
        · exact ((upper_camel (.qualify (.inr hw.name) hwg.name)).append _).named
      · exact ⟨(by intro x t h; cases h), (upper_new _).named, forall_nil, (by intro t h; cases h; exact hu.named), ok_block (forall_cons ⟨rfl, hu.named, ok_newElements fun g hg => (hfs g hg).named⟩ forall_nil)⟩
      · refine ⟨(ok_params hu.named).1, by decide +kernel, forall_cons ⟨by decide +kernel, by decide +kernel, by decide +kernel⟩ (forall_cons ⟨by decide +kernel, ok_terror _ rfl⟩ forall_nil), (by intro t h; cases h), ?_⟩
        exact ok_block (forall_cons ⟨rfl, ok_call1 _ (ok_sel _ (ok_encoder _) (by decide +kernel)) (ok_err _)⟩ forall_nil)
      · exact ok_encodeDecl hu.named fun g hg => (hfs g hg).named
      · refine ⟨(ok_params hu.named).1, by decide +kernel, forall_cons ⟨by decide +kernel, ?_⟩ forall_nil, ok_terror, ?_⟩
        · show Ty.Ok (.name go!"byte")
          unfold Ty.Ok; decide +kernel
        · refine ok_block (forall_cons ⟨rfl, ⟨ok_x _, ok_nil _⟩, ok_block (forall_cons ⟨rfl, ok_var _ (by cases lib <;> decide +kernel)⟩ forall_nil)⟩ ?_)
          cases lib
          · refine forall_cons ⟨rfl, ok_d _, ok_call1 _ (ok_polyglot _ (by decide +kernel)) (ok_b _)⟩ (forall_cons ⟨rfl, ok_call0 _ (ok_sel _ (ok_d _) (by decide +kernel))⟩
              (forall_cons ⟨rfl, ok_call1 _ (ok_sel _ (ok_x _) (by decide +kernel)) (ok_d _)⟩ forall_nil))
          · refine forall_cons ⟨rfl, ?_⟩ forall_nil
            exact ok_call1 _ (ok_sel _ (ok_x _) (by decide +kernel)) (ok_call1 _ (ok_polyglot _ (by decide +kernel)) (ok_b _))
      · exact ok_decodeDecl hu.named hw.fields
    · have hw := h.typeWf ht
      have hwg := hw.fields g hg
      have hu : Upper (mapName t.1 g) := (upper_camel (.qualify (.inr hw.name) hwg.name)).append _
      have hkt := ok_scalarTy kk
      have hvt : Ty.Ok (elemTy g.kind (camel g.type)) := ok_elemTy fun hk => (upper_camel (hwg.type hk)).named
      revert d
      refine forall_cons ⟨hu.named, hkt, hvt⟩ (forall_cons ?_ (forall_cons ?_ (forall_cons ?_ forall_nil)))
      · exact ⟨(by intro x t h; cases h), (upper_new _).named, forall_cons ⟨by decide +kernel, ok_tuint32⟩ forall_nil, (by intro t h; cases h; exact ⟨hkt, hvt⟩),
          ok_block (forall_cons ⟨rfl, ⟨hkt, hvt⟩, ok_var _ (by decide +kernel)⟩ forall_nil)⟩
      · exact ok_encodeMapFunc _ _ hu.named
      · exact ok_decodeMapFunc _ _ hu.named (hwg.key kk hs) fun hk => upper_camel (hwg.type hk)

theorem ordered_program (f : FileD) : ordered (program f) = true := by
  rw [program_units]
  have : ∀ d ∈ f.units.flatMap Unit.decls, (match d with | .package _ => false | .imports _ => false | _ => true) = true := by
    intro d hd
    obtain ⟨u, hu, hd'⟩ := List.mem_flatMap.mp hd
    clear hd
    rcases units_mem hu with ⟨e, he, rfl⟩ | ⟨t, ht, rfl | ⟨g, hg, kk, hs, rfl⟩⟩
    · revert d; exact forall_cons rfl (forall_cons rfl forall_nil)
    · revert d; exact forall_cons rfl (forall_cons rfl (forall_cons rfl (forall_cons rfl (forall_cons rfl (forall_cons rfl forall_nil)))))
    · revert d; exact forall_cons rfl (forall_cons rfl (forall_cons rfl (forall_cons rfl forall_nil)))
  simp only [headDecls, List.cons_append, List.nil_append, errorsDecl, ordered, ordered.go]
  simp only [List.all_cons, Bool.true_and, List.all_eq_true]
  exact this

/-- Reading the tokens of the generated program gives the program. -/
theorem parse_program {f : FileD} (h : f.Wf) : parse (file (program f)) = some (program f) := parse_file _ (ok_program h) (ordered_program f)

end GoText
