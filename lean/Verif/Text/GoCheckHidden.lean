import Verif.Text.GoCheckConverse

/-!
# A generated program that compiles hides no name that it needs
-/

namespace GoCheck

open Utils Text GoAst GoText
open Gen (PKind Field)
open GoRun (tDecoder tError lookup_cons_ne lookup_cons_self)

variable {lib : Lib}

/-! ## Hidden names -/

/-- A local variable hides `n`. -/
def Hides (Γ : Env) (n : Ident) : Prop := Γ.vars.lookup n ≠ none

/-- Where a local variable hides `n`, the statement does not compile. -/
def Wants [Lib] (n : Ident) (s : Stmt) : Prop := ∀ P ret Γ, Hides Γ n → stmt P ret s Γ = none

theorem declare_hides {Γ Γ' : Env} {m n : Ident} {t : Ty} (h : Γ.declare m t = some Γ') (hn : Hides Γ n) : Hides Γ' n := by
  by_cases e : n = m
  · unfold Env.declare at h
    split at h
    · cases h; exact hn
    · split at h
      · cases h
      · cases h
        subst e
        unfold Hides
        rw [lookup_cons_self]
        simp
  · unfold Hides
    rw [declare_lookup h e]; exact hn

theorem declare_self {Γ Γ' : Env} {n : Ident} {t : Ty} (h : Γ.declare n t = some Γ') (hn : n ≠ go!"_") : Hides Γ' n := by
  unfold Env.declare at h
  rw [if_neg hn] at h
  split at h
  · cases h
  · cases h
    unfold Hides
    rw [lookup_cons_self]
    simp

theorem stmt_hides {P : List Decl} {ret : Option Ty} {s : Stmt} {Γ Γ' : Env} {n : Ident} (hs : simple s = true) (h : stmt P ret s Γ = some Γ') (hn : Hides Γ n) : Hides Γ' n := by
  by_cases e : n ∈ newNames s
  · cases s with
    | define2 l m e =>
      simp only [stmt] at h
      split at h
      · split at h
        · cases h
        · rename_i t u _ _
          cases hd : Γ.declare l t with
          | none => rw [hd] at h; cases h
          | some Γ1 => rw [hd] at h; exact declare_hides h (declare_hides hd hn)
      · cases h
    | var m t =>
      simp only [stmt] at h
      split at h
      · exact declare_hides h hn
      · cases h
    | define m e =>
      simp only [stmt] at h
      split at h
      · split at h
        · cases h
        · exact declare_hides h hn
      · cases h
    | _ => cases e
  · unfold Hides
    rw [stmt_lookup hs h e]; exact hn

theorem wants_block {n : Ident} {s : Stmt} (h : Wants n s) : ∀ ss : List Stmt, s ∈ ss → Wants n (block ss)
  | [], hs => by cases hs
  | q :: ss, hs => by
    intro P ret Γ hn
    rw [stmt_block_cons]
    rcases List.mem_cons.mp hs with rfl | hs
    · rw [h P ret Γ hn]
    · cases hq : stmt P ret q Γ with
      | none => rfl
      | some Γ' =>
        simp only
        split
        · rename_i h2
          rw [Bool.and_eq_true] at h2
          exact wants_block h ss hs P ret Γ' (stmt_hides h2.1 hq hn)
        · rfl

theorem wants_if1 {n : Ident} {c : Expr} {s : Stmt} (h : Wants n s) : Wants n (.if1 c s) := by
  intro P ret Γ hn
  rw [stmt, h P ret Γ.inner hn]
  simp

theorem wants_for3 {n i : Ident} {e c : Expr} {s : Stmt} (h : Wants n s) : Wants n (.for3 i e c s) := by
  intro P ret Γ hn
  rw [stmt]
  split
  · split
    · rename_i t _ Γ' hd
      rw [h P ret Γ'.inner (declare_hides (Γ := Γ.inner) (Γ' := Γ') hd hn)]
      simp
    · rfl
  · rfl

theorem wants_call0 (n : Ident) (l : Expr) : Wants n (.assign l (.call0 (.var n))) := by
  intro P ret Γ hn
  have hc : callee P Γ.vars (.var n) = none := by
    unfold callee
    rw [if_pos (Option.isSome_iff_ne_none.mpr hn)]
  have he : expr P Γ.vars (.call0 (.var n)) = none := by
    conv => lhs; unfold expr
    rw [hc]; rfl
  rw [stmt, he]
  cases left P Γ.vars l <;> rfl

theorem wants_call1 (n : Ident) (l a : Expr) : Wants n (.assign l (.call1 (.var n) a)) := by
  intro P ret Γ hn
  have hc : callee P Γ.vars (.var n) = none := by
    unfold callee
    rw [if_pos (Option.isSome_iff_ne_none.mpr hn)]
  have he : expr P Γ.vars (.call1 (.var n) a) = none := by
    conv => lhs; unfold expr
    rw [hc]
    cases expr P Γ.vars a <;> rfl
  rw [stmt, he]
  cases left P Γ.vars l <;> rfl

theorem wants_make (n : Ident) (l a : Expr) : Wants n (.assign l (.make (.slice (.ptr (.name n))) a)) := by
  intro P ret Γ hn
  have ht : typeOk P Γ.vars (.slice (.ptr (.name n))) = false := by
    simp only [typeOk]
    cases hl : Γ.vars.lookup n with
    | none => exact absurd hl hn
    | some t => rfl
  have he : expr P Γ.vars (.make (.slice (.ptr (.name n))) a) = none := by
    conv => lhs; unfold expr
    unfold makeOk
    cases expr P Γ.vars a with
    | none => rfl
    | some x => simp only [ht, Bool.false_and, Bool.false_eq_true, if_false]
  rw [stmt, he]
  cases left P Γ.vars l <;> rfl

/-! ## The statements of a field -/

/-- The statements that decode a field. -/
def decField [Lib] (owner : Bytes) (g : FieldD) : List Stmt :=
  if g.isValue then decValue (camel g.name) g.kind (camel g.type)
  else if g.isSlice then decSlice (camel g.name) g.kind (manyTy g.kind g.type) (camel g.type)
  else decMessageField owner g

/-- They want every name that the field mentions. -/
theorem field_wants (owner : Bytes) (g : FieldD) : ∀ n ∈ g.mentions owner, ∃ s ∈ decField owner g, Wants n s := by
  intro n hn
  unfold FieldD.mentions at hn
  unfold decField
  cases hs : g.shape with
  | one r =>
    rw [hs] at hn
    simp only at hn
    by_cases he : g.kind = .enum
    · rw [if_pos he, List.mem_singleton] at hn
      subst hn
      have hv : g.isValue = true := by simp [FieldD.isValue, hs, he]
      rw [if_pos hv, he]
      exact ⟨_, by simp [decValue], wants_call1 _ (xf (camel g.name)) (.var (camel g.name ++ go!"Temp"))⟩
    · rw [if_neg he] at hn
      split at hn
      · rename_i hm
        rw [List.mem_singleton] at hn
        subst hn
        have hv : g.isValue = false := by simp [FieldD.isValue, hs, hm]
        have hl : g.isSlice = false := by simp [FieldD.isSlice, hs]
        rw [if_neg (by simp [hv]), if_neg (by simp [hl])]
        have hd : decMessageField owner g = decMessage (camel g.name) (camel g.type) := by unfold decMessageField; rw [hs]
        rw [hd]
        cases lib with
        | v1 =>
          refine ⟨_, List.mem_cons_self .., wants_if1 (wants_block (wants_call0 _ _) _ (List.mem_singleton_self _))⟩
        | v2 =>
          refine ⟨_, List.mem_cons_self .., wants_if1 (wants_block (wants_call0 _ _) _ (List.mem_cons_self ..))⟩
      · cases hn
  | many =>
    rw [hs] at hn
    simp only at hn
    split at hn
    · rename_i hm
      have hv : g.isValue = false := by simp [FieldD.isValue, hs]
      have hl : g.isSlice = true := by simp [FieldD.isSlice, hs]
      rw [if_neg (by simp [hv]), if_pos hl, hm]
      simp only [List.mem_cons, List.not_mem_nil, or_false] at hn
      rcases hn with rfl | rfl
      · refine ⟨_, List.mem_cons_of_mem _ (List.mem_cons_of_mem _ (List.mem_cons_self ..)), wants_if1 (wants_block (wants_make _ _ _) _ (List.mem_singleton_self _))⟩
      · refine ⟨_, List.mem_cons_of_mem _ (List.mem_cons_of_mem _ (List.mem_cons_of_mem _ (List.mem_cons_self ..))), wants_for3 (wants_block (s := ?_) ?_ _ ?_)⟩
        rotate_left
        · exact wants_if1 (c := .eq (.index (xf (camel g.name)) vi) vnil) (wants_block (wants_call0 _ (.index (xf (camel g.name)) vi)) [_] (List.mem_singleton_self _))
        · simp
    · cases hn
  | map kk =>
    rw [hs] at hn
    simp only [List.mem_singleton] at hn
    subst hn
    have hv : g.isValue = false := by simp [FieldD.isValue, hs]
    have hl : g.isSlice = false := by simp [FieldD.isSlice, hs]
    rw [if_neg (by simp [hv]), if_neg (by simp [hl])]
    have hd : decMessageField owner g = [decMap (camel g.name) kk g.kind (mapName owner g)] := by unfold decMessageField; rw [hs]
    rw [hd]
    exact ⟨_, List.mem_singleton_self _, wants_if1 (wants_block (wants_call1 _ (xf (camel g.name)) (.var (camel g.name ++ go!"Size"))) _ (by simp))⟩

/-- After the declaration of a variable, nothing wants its name. -/
theorem after_var {P : List Decl} {ret : Option Ty} {n : Ident} {t : Ty} (hn : n ≠ go!"_") {rest : List Stmt} : ∀ (pre : List Stmt) {Γ Γ' : Env},
    stmt P ret (block (pre ++ .var n t :: rest)) Γ = some Γ' → ∀ s ∈ rest, ¬ Wants n s
  | [], Γ, Γ', h => by
    rw [List.nil_append, stmt_block_cons] at h
    split at h
    · rename_i Γ1 h1
      split at h
      · intro s hs hw
        have hh : Hides Γ1 n := by
          simp only [stmt] at h1
          split at h1
          · exact declare_self h1 hn
          · cases h1
        rw [wants_block hw rest hs P ret Γ1 hh] at h
        cases h
      · cases h
    · cases h
  | q :: pre, Γ, Γ', h => by
    rw [List.cons_append, stmt_block_cons] at h
    split at h
    · split at h
      · exact after_var hn pre h
      · cases h
    · cases h

section
variable {f : FileD}

theorem upper_blank {n : Ident} (h : Upper n) : n ≠ go!"_" := upper_ne h ⟨_, _, rfl, by decide⟩

theorem unhidden_temp (h : compiles (program f) = true) (hw : f.Wf) : ∀ t ∈ f.types, ∀ before g after, decodingOrder t.2 = before ++ g :: after → g.kind = .enum → ∀ r, g.shape = .one r →
    ∀ g' ∈ g :: after, camel g.name ++ go!"Temp" ∉ g'.mentions t.1 := by
  intro t ht before g after ho he r hs g' hg' hm
  obtain ⟨Γ', hd⟩ := decode_compiles h ht
  have hgm : g ∈ t.2 := by
    have : g ∈ decodingOrder t.2 := by rw [ho]; simp
    unfold decodingOrder at this
    simp only [List.mem_append, List.mem_filter] at this
    rcases this with h | h | h <;> exact h.1
  have hv : g.isValue = true := by simp [FieldD.isValue, hs, he]
  have hup : Upper (camel g.name ++ go!"Temp") := (upper_camel (.one ((hw.typeWf ht).fields g hgm).name)).append _
  have hnot : ∀ x, x ∈ t.2.filter FieldD.isSlice ++ t.2.filter FieldD.isMessage → x.isValue = false := by
    intro x hx
    rcases List.mem_append.mp hx with hx | hx <;> have hx := (List.mem_filter.mp hx).2
    · cases hsx : x.shape <;> simp_all [FieldD.isSlice, FieldD.isValue]
    · cases hsx : x.shape <;> simp_all [FieldD.isMessage, FieldD.isValue]
  -- the fields that are read after `g`
  obtain ⟨later, hvals, hafter⟩ : ∃ later, t.2.filter FieldD.isValue = before ++ g :: later ∧
      after = later ++ (t.2.filter FieldD.isSlice ++ t.2.filter FieldD.isMessage) := by
    unfold decodingOrder at ho
    rcases List.append_eq_append_iff.mp ho with ⟨a, h1, h2⟩ | ⟨c, h1, h2⟩
    · have := hnot g (by rw [h2]; simp)
      rw [hv] at this; cases this
    · cases c with
      | nil =>
        rw [List.nil_append] at h2
        have := hnot g (by rw [← h2]; simp)
        rw [hv] at this; cases this
      | cons x c =>
        simp only [List.cons_append, List.cons.injEq] at h2
        obtain ⟨rfl, h2⟩ := h2
        exact ⟨c, h1, h2⟩
  have hbody : decodeBody t = ([.if1 (.call0 (.sel vd go!"Nil")) (block [.ret1 vnil])] ++ (if !t.2.isEmpty then [.var go!"err" terror] else []) ++
      (before.flatMap fun f => decValue (camel f.name) f.kind (camel f.type))) ++ .var (camel g.name ++ go!"Temp") tuint32 ::
      ([.assign2 (.var (camel g.name ++ go!"Temp")) verr (.call0 (.sel vd (method .enum))),
        .assign (xf (camel g.name)) (.call1 (.var (camel g.type)) (.var (camel g.name ++ go!"Temp"))), check] ++
      (later.flatMap fun f => decValue (camel f.name) f.kind (camel f.type)) ++ (if t.2.any FieldD.isSlice then [.var go!"sliceSize" tuint32] else []) ++
      ((t.2.filter FieldD.isSlice).flatMap fun f => decSlice (camel f.name) f.kind (manyTy f.kind f.type) (camel f.type)) ++
      ((t.2.filter FieldD.isMessage).flatMap (decMessageField t.1)) ++ [.ret1 vnil]) := by
    have hg : decValue (camel g.name) g.kind (camel g.type) = [.var (camel g.name ++ go!"Temp") tuint32,
        .assign2 (.var (camel g.name ++ go!"Temp")) verr (.call0 (.sel vd (method .enum))),
        .assign (xf (camel g.name)) (.call1 (.var (camel g.type)) (.var (camel g.name ++ go!"Temp"))), check] := by rw [he]; rfl
    rw [decodeBody, hvals, List.flatMap_append, List.flatMap_cons, hg]
    simp only [List.append_assoc, List.cons_append, List.nil_append]
  rw [hbody] at hd
  have hafterVar := after_var (upper_blank hup) _ hd
  rcases List.mem_cons.mp hg' with rfl | hg'
  · unfold FieldD.mentions at hm
    rw [hs] at hm
    simp only [if_pos he, List.mem_singleton] at hm
    refine hafterVar _ ?_ (by rw [hm]; exact wants_call1 (camel g'.type) (xf (camel g'.name)) (.var (camel g'.type)))
    simp [hm]
  · obtain ⟨s, hs', hwant⟩ := field_wants t.1 g' _ hm
    refine hafterVar s ?_ hwant
    unfold decField at hs'
    rw [hafter] at hg'
    simp only [List.mem_append, List.mem_flatMap]
    rcases List.mem_append.mp hg' with hl | hl
    · have hv' : g'.isValue = true := (List.mem_filter.mp (by rw [hvals]; simp [hl] : g' ∈ t.2.filter FieldD.isValue)).2
      rw [if_pos hv'] at hs'
      exact .inl (.inl (.inl (.inl (.inr ⟨g', hl, hs'⟩))))
    · have hv' := hnot g' hl
      rw [if_neg (by simp [hv'])] at hs'
      rcases List.mem_append.mp hl with hl | hl
      · rw [if_pos (List.mem_filter.mp hl).2] at hs'
        exact .inl (.inl (.inr ⟨g', hl, hs'⟩))
      · have hns : g'.isSlice = false := by
          have := (List.mem_filter.mp hl).2
          cases hsx : g'.shape <;> simp_all [FieldD.isMessage, FieldD.isSlice]
        rw [if_neg (by simp [hns])] at hs'
        exact .inl (.inr ⟨g', hl, hs'⟩)

theorem unhidden_value (h : compiles (program f) = true) : ∀ t ∈ f.types, ∀ g ∈ t.2, g.kind = .enum → ∀ kk, g.shape = .map kk → camel g.type ≠ go!"ValueTemp" := by
  intro t ht g hg he kk hs hty
  have hdecl : decl (program f) (decodeMapFunc (mapName t.1 g) kk g.kind (camel g.type)) = true := by
    simp only [compiles, Bool.and_eq_true, List.all_eq_true] at h
    exact h.1.1.1.1.1.2 _ (mem_mapUnit ht hg hs (by simp [Unit.decls]))
  obtain ⟨Γ', hd⟩ := func_body hdecl
  rw [he, if_pos rfl, hty] at hd
  refine after_var (n := go!"ValueTemp") (t := tuint32) (by decide +kernel)
    [.if1 (.eq (.var go!"size") (.num go!"0")) (block [.ret1 vnil]), .var go!"k" (scalarTy kk), .var go!"v" (elemTy .enum go!"ValueTemp")] hd
    (mapLoop kk .enum go!"ValueTemp") (by simp [mapLoop, mapBody]) ?_
  refine wants_for3 (wants_block (wants_call1 go!"ValueTemp" (.var go!"v") (.var go!"ValueTemp")) _ ?_)
  simp [mapBody, decEntry]

/-- A program that compiles hides nothing that it needs. -/
theorem unhidden_of_compiles (h : compiles (program f) = true) (hw : f.Wf) : f.Unhidden := ⟨unhidden_temp h hw, unhidden_value h⟩

end

end GoCheck
