import Verif.Text.GoCheckMap
import Verif.Text.GoReads

/-!
# The generated program compiles
-/

namespace GoCheck

open Utils Text GoAst GoText
open Gen (PKind Field)
open Package (EnumD qualify)
open GoRun (findStruct findType findFunc findMethod findErr base Func structOf fieldIndex kinds tBool tUint32 tInt tError tBytes tBuffer tEncoder tDecoder tKind
  lookup_cons_ne lookup_cons_self)

variable {lib : Lib}

/-- Go names of fields that are also names of methods of the struct. -/
def methodNames : List Ident := [go!"Error", go!"Encode", go!"Decode"]

/-- The files whose generated code compiles: types that are supported and declared in the file, no clashes of names, at least one
message, a package that is not `main`. -/
structure _root_.GoText.FileD.Compilable [Lib] (f : FileD) : Prop where
  plain : f.Plain
  unhidden : f.Unhidden
  messages : f.types ≠ []
  fields : ∀ t ∈ f.types, ∀ g ∈ t.2, camel g.name ∉ methodNames
  package : ofBytes (packageName f) ≠ go!"main"
  enums : ∀ e ∈ f.enumTypes, e.2.values.length ≤ 2 ^ 32

/-! ## Numbers -/

def digitStep (a : Option Nat) (c : Sym) : Option Nat :=
  match a, c with
  | some n, .byte c => if isDigit c then some (10 * n + (c.toNat - 48)) else none
  | _, _ => none

theorem digit_byte : ∀ d, d < 10 → isDigit (BitVec.ofNat 8 (Nat.digitChar d).toNat) = true ∧ (BitVec.ofNat 8 (Nat.digitChar d).toNat).toNat = 48 + d := by
  decide

theorem decimal_spec (n : Nat) : ∃ b r, decimal n = b :: r ∧ isDigit b = true ∧ (n ≠ 0 → b.toNat ≠ 48) ∧ (n = 0 → r = []) ∧
    (ofBytes r).foldl digitStep (some (b.toNat - 48)) = some n := by
  induction n using Nat.strongRecOn with
  | _ n ih =>
    by_cases h : n < 10
    · obtain ⟨h1, h2⟩ := digit_byte n h
      refine ⟨_, [], by rw [decimal, Nat.toDigits_of_lt_base h]; rfl, h1, ?_, fun _ => rfl, ?_⟩
      · rw [h2]; omega
      · rw [h2]; simp [ofBytes]
    · obtain ⟨b, r, e1, e2, e3, e4, e5⟩ := ih (n / 10) (by omega)
      obtain ⟨h1, h2⟩ := digit_byte (n % 10) (by omega)
      refine ⟨b, r ++ [BitVec.ofNat 8 (Nat.digitChar (n % 10)).toNat], ?_, e2, fun _ => e3 (by omega), fun h0 => by omega, ?_⟩
      · rw [decimal, Nat.toDigits_of_base_le (by decide) (by omega), List.map_append]
        rw [decimal] at e1
        rw [e1]
        rfl
      · rw [GoText.ofBytes_append, List.foldl_append, e5]
        simp only [ofBytes, List.map_cons, List.map_nil, List.foldl_cons, List.foldl_nil, digitStep, h1, h2, if_true, Option.some.injEq]
        omega

theorem decimalValue_decimal (n : Nat) : decimalValue (ofBytes (decimal n)) = some n := by
  obtain ⟨b, r, e1, e2, e3, e4, e5⟩ := decimal_spec n
  rw [e1]
  show (if isDigit b = true ∧ (b.toNat ≠ 48 ∨ ofBytes r = []) then (ofBytes r).foldl digitStep (some (b.toNat - 48)) else none) = _
  rw [if_pos, e5]
  refine ⟨e2, ?_⟩
  by_cases h : n = 0
  · exact .inr (by rw [e4 h]; rfl)
  · exact .inl (e3 h)

section
variable {f : FileD}

/-! ## Declarations -/

theorem findMethod_none {n m : Ident} (hm : m ∉ methodNames) (hd : m ≠ go!"decode") : findMethod (program f) n m = none := by
  rw [findMethod, List.findSome?_eq_none_iff]
  intro d hmem
  split
  · rename_i x v m' ps r b
    rw [if_neg]
    rintro ⟨_, rfl⟩
    rw [program_units] at hmem
    rcases List.mem_append.mp hmem with hmem | hmem
    · simp [headDecls, errorsDecl] at hmem
    · obtain ⟨u, _, hu⟩ := List.mem_flatMap.mp hmem
      simp only [methodNames, List.mem_cons, List.not_mem_nil, or_false, not_or] at hm
      cases u with
      | enum s e => simp [Unit.decls, enumDecls] at hu
      | map o g kk =>
        simp only [Unit.decls, mapDecls, encodeMapFunc, decodeMapFunc, List.mem_append, List.mem_cons, List.not_mem_nil, or_false, reduceCtorEq, Decl.func.injEq,
          false_and, false_or] at hu
        rcases hu with ⟨_, e, _⟩ | ⟨_, e, _⟩
        · exact hm.2.1 e
        · exact hd e
      | msg n fs =>
        simp only [Unit.decls, msgDecls, newFunc, errorFunc, encodeDecl, encodeFunc, decodeApi, decodeDecl, decodeFunc, List.mem_cons, List.not_mem_nil, or_false,
          reduceCtorEq, Decl.func.injEq, false_and, false_or] at hu
        rcases hu with ⟨_, e, _⟩ | ⟨_, e, _⟩ | ⟨_, e, _⟩ | ⟨_, e, _⟩
        · exact hm.1 e
        · exact hm.2.1 e
        · exact hm.2.2 e
        · exact hd e
  · rfl

theorem findStruct_type {P : List Decl} (hP : Distinct P) {n : Ident} {u : Ty} (h : .type n u ∈ P) : findStruct P n = none := by
  rw [findStruct, List.findSome?_eq_none_iff]
  intro b hb
  split
  · rename_i m fs
    by_cases hm : m = n
    · subst hm
      have := unique_of_nodup hP (x := m) h hb (by simp [Decl.declared]) (by simp [Decl.declared])
      cases this
    · simp [hm]
  · rfl

theorem findStruct_none {P : List Decl} {n : Ident} (h : n ∉ declared P) : findStruct P n = none := by
  rw [findStruct, List.findSome?_eq_none_iff]
  intro b hb
  split
  · rename_i m fs
    by_cases hm : m = n
    · subst hm
      exact absurd (List.mem_flatMap.mpr ⟨_, hb, by simp [Decl.declared]⟩) h
    · simp [hm]
  · rfl

/-- The type of a field is no struct. -/
def NoStruct (P : List Decl) : Ty → Prop
  | .name m => findStruct P m = none
  | _ => True

theorem field_type (h : f.Plain) {t : Bytes × List FieldD} (ht : t ∈ f.types) {g : FieldD} (hg : g ∈ t.2) :
    typeOk (program f) [] (fieldTy t.1 g) = true ∧ NoStruct (program f) (fieldTy t.1 g) := by
  have hP := good_program (lib := lib) h.wf
  have hw := (h.wf.typeWf ht).fields g hg
  have hsup := GoRun.supported_field h ht hg
  have hel : typeOk (program f) [] (elemTy g.kind (camel g.type)) = true := by
    refine typeOk_elem h Open.nil hw.kind (fun e => ?_) (fun e => ?_)
    · obtain ⟨t', ht', he'⟩ := message_type h ht hg e
      exact ⟨t', ht', he', rfl⟩
    · exact ⟨(h.closed t ht g hg).2 e, rfl⟩
  cases hs : g.shape with
  | map kk =>
    simp only [fieldTy, hs]
    refine ⟨typeOk_type (find_mapType h ht hg hs) rfl, ?_⟩
    exact findStruct_type h.distinct (mem_mapDecl h ht hg hs (d := .type (mapName t.1 g) (.map (scalarTy kk) (elemTy g.kind (camel g.type)))) (by simp [Unit.decls, mapDecls]))
  | many =>
    simp only [FieldD.toField, hs, Field.GoSupported] at hsup
    have hmany : manyTy g.kind g.type = elemTy g.kind (camel g.type) := by
      unfold manyTy
      split
      · rename_i he; exact absurd he hsup.2.1
      · rfl
    simp only [fieldTy, hs, hmany]
    exact ⟨hel, trivial⟩
  | one r =>
    simp only [fieldTy, hs]
    refine ⟨hel, ?_⟩
    have hbasic : ∀ n ∈ basicTypes, NoStruct (program f) (.name n) := fun n hn => findStruct_none (hP.names n (basic_keep n hn))
    by_cases hk : g.kind = .enum
    · rw [hk]
      exact findStruct_type h.distinct (enum_decl ((h.closed t ht g hg).2 hk))
    · cases hk' : g.kind <;> rw [hk'] at hk <;> first | contradiction | exact trivial | exact hbasic _ (by decide +kernel) | exact absurd hk' hw.kind

theorem decl_struct (h : f.Compilable) {t : Bytes × List FieldD} (ht : t ∈ f.types) :
    decl (program f) (.struct (camel t.1) (t.2.map fun g => (camel g.name, fieldTy t.1 g))) = true := by
  have hn : ((t.2.map fun g => (camel g.name, fieldTy t.1 g)).map (·.1)).Nodup := by
    rw [List.map_map]
    exact h.plain.fields t ht
  simp only [decl, hn, decide_true, Bool.true_and, List.all_eq_true]
  intro q hq
  obtain ⟨g, hg, rfl⟩ := List.mem_map.mp hq
  obtain ⟨h1, h2⟩ := field_type h.plain ht hg
  have h3 : findMethod (program f) (camel t.1) (camel g.name) = none :=
    findMethod_none (h.fields t ht g hg) (upper_ne (upper_name h.plain.wf ht hg) ⟨_, _, rfl, by decide⟩)
  simp only [h1, h3, Option.isNone_none, Bool.and_true, Bool.true_and]
  split
  · rename_i m he
    rw [he] at h2
    rw [show findStruct (program f) m = none from h2]
    rfl
  · rfl

theorem decl_enum (h : f.Compilable) {e : Bytes × EnumD} (he : e ∈ f.enumTypes) : ∀ d ∈ enumDecls e.1 e.2, decl (program f) d = true := by
  have hP := good_program (lib := lib) h.plain.wf
  have hn : qualify e.1 e.2.name ∈ f.enumNames := List.mem_map.mpr ⟨e, he, rfl⟩
  intro d hd
  simp only [enumDecls, List.mem_cons, List.not_mem_nil, or_false] at hd
  rcases hd with rfl | rfl
  · have : typeOk (program f) [] tuint32 = true := typeOk_basic Open.nil (by decide +kernel)
    simp only [decl, this, Bool.true_and]
    decide +kernel
  · simp only [decl, List.all_eq_true, List.mem_mapIdx]
    rintro q ⟨i, hi, rfl⟩
    have h1 : isDefined (program f) (camel (qualify e.1 e.2.name)) = true := by
      simp [isDefined, (find_enum h.plain hn).1]
    have h2 := h.enums e he
    simp only [decimalValue_decimal, h1, assignable, integer_enum h.plain hn, Bool.true_and, decide_eq_true_eq]
    omega

theorem decl_head (h : f.Compilable) : ∀ d ∈ headDecls f, decl (program f) d = true := by
  have hP := good_program (lib := lib) h.plain.wf
  intro d hd
  simp only [headDecls, List.mem_cons, List.not_mem_nil, or_false] at hd
  rcases hd with rfl | rfl | rfl
  · have h2 : ofBytes (packageName f) ≠ go!"_" := by
      have key : IsIdent (packageName f) := by
        unfold packageName
        rcases h.plain.wf.package with hp | hp
        · have : lastName f.package = [] := by rw [hp]; rfl
          rw [if_pos this]; exact h.plain.wf.goPackage hp
        · have := lastName_ident hp
          rw [if_neg (by obtain ⟨c, cs, e, _⟩ := this; rw [e]; simp)]
          exact this
      obtain ⟨c, cs, e, hc, _⟩ := key
      rw [e]
      intro he
      have : c = 95 := by simpa [ofBytes] using (List.cons.inj he).1
      subst this
      revert hc
      decide
    simp only [decl, h.package, h2, decide_false]
    rfl
  · rw [decl]
    cases lib <;> decide +kernel
  · have hp : isPackage (program f) [] go!"errors" = true := by
      rw [isPackage, hP.imports]; decide +kernel
    have hc : callee (program f) [] (.sel (.var go!"errors") go!"New") = some (.func ⟨[.name go!"string"], [tError]⟩) := by
      simp only [callee, hp, if_true]
      cases lib <;> decide +kernel
    have ha : argsOk (program f) [.name go!"string"] [.str] = true := by
      have : go!"string" ∈ keep := by decide +kernel
      simp [argsOk, assignable, underlying_basic hP this]
    have hx := expr_call1 hc (a := .str go!"cannot decode into a nil root struct") (u := .str) (by rw [expr]) ha
    simp only [errorsDecl, decl, List.all_cons, hx, List.all_nil]
    rfl

theorem decls_ok (h : f.Compilable) : ∀ d ∈ program f, decl (program f) d = true := by
  intro d hd
  rw [program_units] at hd
  rcases List.mem_append.mp hd with hd | hd
  · exact decl_head h d hd
  · obtain ⟨u, hu, hd⟩ := List.mem_flatMap.mp hd
    rcases units_mem hu with ⟨e, he, rfl⟩ | ⟨t, ht, rfl | ⟨g, hg, kk, hs, rfl⟩⟩
    · exact decl_enum h he d hd
    · simp only [Unit.decls, msgDecls, List.mem_cons, List.not_mem_nil, or_false] at hd
      rcases hd with rfl | rfl | rfl | rfl | rfl | rfl
      · exact decl_struct h ht
      · exact decl_new h.plain ht
      · exact decl_error h.plain ht
      · exact decl_encode h.plain ht
      · exact decl_decodeApi h.plain ht
      · exact decl_decode h.plain h.unhidden ht
    · simp only [Unit.decls, List.mem_append] at hd
      rcases hd with hd | hd
      · exact decl_mapType h.plain ht hg hs d hd
      · simp only [List.mem_cons, List.not_mem_nil, or_false] at hd
        rcases hd with rfl | rfl
        · exact decl_mapEncode h.plain ht hg hs
        · exact decl_mapDecode h.plain h.unhidden ht hg hs

/-! ## Methods -/

theorem nodup_flatMap {α β : Type} {g : α → List β} {key : α → β} : ∀ {l : List α}, (l.map key).Nodup → (∀ a ∈ l, (g a).Nodup) →
    (∀ a ∈ l, ∀ b ∈ l, ∀ x, x ∈ g a → x ∈ g b → key a = key b) → (l.flatMap g).Nodup
  | [], _, _, _ => List.nodup_nil
  | a :: l, hk, hg, hd => by
    rw [List.map_cons, List.nodup_cons] at hk
    rw [List.flatMap_cons, List.nodup_append]
    refine ⟨hg a (List.mem_cons_self ..), nodup_flatMap hk.2 (fun b hb => hg b (List.mem_cons_of_mem _ hb))
      (fun b hb c hc => hd b (List.mem_cons_of_mem _ hb) c (List.mem_cons_of_mem _ hc)), ?_⟩
    rintro x hx y hy rfl
    obtain ⟨b, hb, hy⟩ := List.mem_flatMap.mp hy
    exact hk.1 (hd a (List.mem_cons_self ..) b (List.mem_cons_of_mem _ hb) x hx hy ▸ List.mem_map.mpr ⟨b, hb, rfl⟩)

theorem keys_nodup : ∀ {us : List GoText.Unit}, (us.flatMap fun u => u.decls.flatMap Decl.declared).Nodup → (us.map Unit.key).Nodup
  | [], _ => List.nodup_nil
  | u :: us, h => by
    rw [List.flatMap_cons, List.nodup_append] at h
    rw [List.map_cons, List.nodup_cons]
    refine ⟨?_, keys_nodup h.2.1⟩
    intro hm
    obtain ⟨w, hw, he⟩ := List.mem_map.mp hm
    obtain ⟨d1, h1, h2⟩ := unit_key u
    obtain ⟨d2, h3, h4⟩ := unit_key w
    exact h.2.2 _ (List.mem_flatMap.mpr ⟨d1, h1, h2⟩) _ (List.mem_flatMap.mpr ⟨w, hw, List.mem_flatMap.mpr ⟨d2, h3, h4⟩⟩) he.symm

/-- The methods of a unit. -/
def unitMethods : GoText.Unit → List Ident
  | .enum _ _ => []
  | .map _ _ _ => [go!"Encode", go!"decode"]
  | .msg _ _ => [go!"Error", go!"Encode", go!"Decode", go!"decode"]

theorem methods_unit (u : GoText.Unit) : u.decls.flatMap methodOfDecl = (unitMethods u).map fun m => (some u.key, m) := by
  cases u <;> rfl

theorem methods_nodup (h : f.Plain) : (methods (program f)).Nodup := by
  have hd := h.distinct
  rw [Distinct, program_units, List.flatMap_append, List.nodup_append] at hd
  have hkeys : (f.units.map Unit.key).Nodup := keys_nodup (by rw [← List.flatMap_assoc]; exact hd.2.1)
  have hhead : (headDecls f).flatMap methodOfDecl = [] := rfl
  rw [methods, program_units, List.flatMap_append, hhead, List.nil_append, List.flatMap_assoc]
  refine nodup_flatMap (key := fun u => (some u.key, ([] : Ident))) ?_ ?_ ?_
  · have : f.units.map (fun u => (some u.key, ([] : Ident))) = (f.units.map Unit.key).map fun k => (some k, ([] : Ident)) := by
      rw [List.map_map]; rfl
    rw [this]
    exact List.Pairwise.map _ (by
      intro a b hab he
      exact hab (Option.some.inj (Prod.mk.inj he).1)) hkeys
  · intro u _
    rw [methods_unit]
    have : (unitMethods u).Nodup := by cases u <;> (simp only [unitMethods]; decide +kernel)
    exact List.Pairwise.map _ (by
      intro a b hab he
      exact hab (Prod.mk.inj he).2) this
  · intro a _ b _ x hx hy
    rw [methods_unit] at hx hy
    obtain ⟨m, _, rfl⟩ := List.mem_map.mp hx
    obtain ⟨m', _, he⟩ := List.mem_map.mp hy
    rw [(Prod.mk.inj he).1]

/-! ## The file -/

theorem compiles_program (h : f.Compilable) : compiles (program f) = true := by
  have hP := good_program (lib := lib) h.plain.wf
  obtain ⟨t, ht⟩ := List.exists_mem_of_ne_nil _ h.messages
  simp only [compiles, ordered_program, Bool.and_eq_true, List.all_eq_true, decide_eq_true_eq, Bool.true_and]
  refine ⟨⟨⟨⟨⟨decls_ok h, h.plain.distinct⟩, methods_nodup h.plain⟩, ?_⟩, ?_⟩, ?_⟩
  · rw [hP.imports]; decide +kernel
  · intro n hn
    have hup := declared_upper h.plain.wf n hn
    have h1 : n ∉ keep := not_keep_upper hup
    have h2 : n ≠ go!"errors" := upper_ne hup ⟨_, _, rfl, by decide⟩
    rw [keep, List.mem_cons, not_or] at h1
    rw [hP.imports]
    simp [h1.1, h1.2, h2]
  · rw [hP.imports]
    intro p hp
    simp only [List.mem_cons, List.not_mem_nil, or_false] at hp
    rw [List.any_eq_true]
    rcases hp with rfl | rfl
    · refine ⟨errorFunc (camel t.1), mem_decl h.plain ht (by simp [msgDecls]), ?_⟩
      have : tyMentions go!"polyglot" (.ptr (.qual go!"polyglot" go!"Buffer")) = true := by decide +kernel
      simp [usesPackage, errorFunc, this]
    · refine ⟨errorsDecl, ?_, by cases lib <;> decide +kernel⟩
      rw [program_units]
      exact List.mem_append_left _ (by simp [headDecls])

end

end GoCheck
