import Verif.Text.GoCheckExact
import Verif.Props.GoRunsDecode

/-!
# Which generated Go programs compile

`GoCheck.compiles` (`GoCheck.lean`) is a type checker for Go programs, written after the Go specification; `program f` is the
program that the generator prints for file `f` (C85).
-/

namespace Props

open Utils Text GoAst GoText GoRun Gen
open Package (EnumD qualify)
open GoCheck (compiles)
open GoGen (Decode v2)

variable {lib : Lib}

/-- **C88 (exact).** The printed program of a file compiles if and only if: its fields refer to types that are declared in this file
only; no variable of a decoder hides a name that is needed afterwards; there is a message; the package is not `main`; no two
declarations have the same Go name; no two fields of a message have the same Go name, and none is named `Error`, `Encode` or
`Decode`; there are no repeated `bytes` or repeated enum fields and no maps with `bytes` values; no message has maps only; and no enum
has more than 2³² values.

Two kinds of files are left out, whose programs compile by accident: those with a field whose type belongs to another file and happens
to have the Go name of a declaration of this one, and those with a repeated field of an enum that is itself named `uint32`. -/
theorem C88_exact_partial (f : FileD) (hw : f.Wf) (ho : f.OwnNames)
    (hn : ∀ t ∈ f.types, ∀ g ∈ t.2, g.shape = .many → g.kind = .enum → g.type ≠ str!"uint32") :
    compiles (program f) = true ↔
      f.Closed ∧ f.Unhidden ∧
      f.types ≠ [] ∧ packageName f ≠ str!"main" ∧ ((program f).flatMap Decl.declared).Nodup ∧ (∀ e ∈ f.enumTypes, e.2.values.length ≤ 2 ^ 32) ∧
      ∀ t ∈ f.types,
        (t.2.map fun g => camel g.name).Nodup ∧
        (t.2 = [] ∨ ∃ g ∈ t.2, ∀ kk, g.shape ≠ .map kk) ∧
        ∀ g ∈ t.2,
          camel g.name ∉ [go!"Error", go!"Encode", go!"Decode"] ∧
          (g.shape = .many → g.kind ≠ .bytes ∧ g.kind ≠ .enum) ∧
          (∀ kk, g.shape = .map kk → g.kind ≠ .bytes) := by
  have hmain : ofBytes (packageName f) ≠ go!"main" ↔ packageName f ≠ str!"main" := by
    constructor
    · rintro h e; rw [e] at h; exact h rfl
    · intro h e
      have e : ofBytes (packageName f) = ofBytes str!"main" := e
      exact h (List.map_inj_right (fun a b hab => by cases hab; rfl) |>.mp e)
  rw [GoCheck.compiles_iff hw ho hn]
  constructor
  · rintro ⟨⟨_, hc, h3, h4, h5⟩, hu, h7, h8, h9, h10⟩
    refine ⟨hc, hu, h7, hmain.mp h9, h3, h10, fun t ht => ⟨h4 t ht, ?_, fun g hg => ⟨h8 t ht g hg, fun hs => ?_, fun kk hs => ?_⟩⟩⟩
    · rcases (h5 _ (List.mem_map.mpr ⟨t, ht, rfl⟩)).2 with h | ⟨x, hx, hm⟩
      · exact .inl (List.map_eq_nil_iff.mp h)
      · obtain ⟨g, hg, rfl⟩ := List.mem_map.mp hx
        refine .inr ⟨g, hg, fun kk hs => ?_⟩
        simp [FieldD.toField, hs, Field.IsMap] at hm
    · have := (h5 _ (List.mem_map.mpr ⟨t, ht, rfl⟩)).1 _ (List.mem_map.mpr ⟨g, hg, rfl⟩)
      simp only [FieldD.toField, hs] at this
      exact ⟨this.2.2, this.2.1⟩
    · have := (h5 _ (List.mem_map.mpr ⟨t, ht, rfl⟩)).1 _ (List.mem_map.mpr ⟨g, hg, rfl⟩)
      simp only [FieldD.toField, hs] at this
      exact this.2.2.2.2
  · rintro ⟨hc, hu, h7, h9, h3, h10, h⟩
    refine ⟨⟨hw, hc, h3, fun t ht => (h t ht).1, ?_⟩, hu, h7, fun t ht g hg => ((h t ht).2.2 g hg).1, hmain.mpr h9, h10⟩
    intro fs hfs
    obtain ⟨t, ht, rfl⟩ := List.mem_map.mp hfs
    refine ⟨fun x hx => ?_, ?_⟩
    · obtain ⟨g, hg, rfl⟩ := List.mem_map.mp hx
      have hwg := (hw.typeWf ht).fields g hg
      obtain ⟨_, h1, h2⟩ := (h t ht).2.2 g hg
      cases hs : g.shape with
      | one r => simp only [FieldD.toField, hs]; exact hwg.kind
      | many => simp only [FieldD.toField, hs]; exact ⟨hwg.kind, (h1 hs).2, (h1 hs).1⟩
      | map kk =>
        simp only [FieldD.toField, hs]
        have := hwg.key kk hs
        refine ⟨?_, ?_, ?_, hwg.kind, h2 kk hs⟩ <;> (rintro rfl; revert this; simp [IsKey])
    · rcases (h t ht).2.1 with he | ⟨g, hg, hm⟩
      · left; simp [he]
      · right
        refine ⟨_, List.mem_map.mpr ⟨g, hg, rfl⟩, ?_⟩
        cases hs : g.shape with
        | map kk => exact absurd hs (hm kk)
        | _ => simp [FieldD.toField, hs, Field.IsMap]

/-- **C88 (necessary).** For every file, also one that refers to types of other files: if the printed program compiles, the Go name of
every message or enum type that a field refers to is declared in this very program. -/
theorem C88_own_types_partial (f : FileD) (hw : f.Wf) (h : compiles (program f) = true) :
    ∀ t ∈ f.types, ∀ g ∈ t.2, (g.kind = .message ∨ g.kind = .enum ∧ g.shape ≠ .many) → camel g.type ∈ (program f).flatMap Decl.declared :=
  fun _ ht _ hg hk => GoCheck.types_declared h hw ht hg hk

/-- **C88 (necessary, hidden names).** For every file, also one that refers to types of other files: if the printed program compiles, no
variable of a decoder hides a name that is needed afterwards. -/
theorem C88_unhidden (f : FileD) (hw : f.Wf) (h : compiles (program f) = true) : f.Unhidden := GoCheck.unhidden_of_compiles h hw

/-- **C88 (necessary, defects).** For every file, whatever its fields refer to: one of these defects makes the printed program not
compile. -/
theorem C88_defects (f : FileD) (hw : f.Wf)
    (h : f.types = [] ∨ packageName f = str!"main" ∨ ¬ ((program f).flatMap Decl.declared).Nodup ∨
      ∃ t ∈ f.types, ¬ (t.2.map fun g => camel g.name).Nodup ∨ (t.2 ≠ [] ∧ ∀ g ∈ t.2, ∃ kk, g.shape = .map kk) ∨
        ∃ g ∈ t.2, camel g.name ∈ [go!"Error", go!"Encode", go!"Decode"] ∨ (g.shape = .many ∧ g.kind = .bytes) ∨
          (g.shape = .many ∧ g.kind = .enum ∧ g.type ≠ str!"uint32") ∨ ∃ kk, g.shape = .map kk ∧ g.kind = .bytes) :
    compiles (program f) = false := by
  cases hc : compiles (program f) with
  | false => rfl
  | true =>
    exfalso
    rcases h with h | h | h | ⟨t, ht, h | ⟨h1, h2⟩ | ⟨g, hg, h | ⟨hs, hk⟩ | ⟨hs, hk, hn⟩ | ⟨kk, hs, hk⟩⟩⟩
    · exact GoCheck.has_message hc hw h
    · exact GoCheck.not_main hc (by rw [h]; rfl)
    · exact h (GoCheck.distinct_of_compiles hc)
    · exact h (GoCheck.struct_compiles hc ht).1
    · obtain ⟨g, hg, hm⟩ := GoCheck.no_maps_only hc ht h1
      obtain ⟨kk, hs⟩ := h2 g hg
      exact hm kk hs
    · exact GoCheck.no_method_fields hc ht hg h
    · exact GoCheck.no_repeated_bytes hc hw ht hg hs hk
    · exact hn (GoCheck.repeatedEnum_uint32 (((hw.typeWf ht).fields g hg).type (.inr hk)) (GoCheck.repeated_enum hc hw ht hg hs hk))
    · exact GoCheck.no_bytes_values hc ht hg hs hk

/-- **C88 (from the text).** The text that the generator prints for a file without these defects is one program; it compiles, and its
methods `Encode` and `Decode` do what C86 and C87 say. -/
theorem C88_text (version : Bytes) (f : FileD) (h : f.Compilable) (hv : ∀ c ∈ version, c.toNat ≠ 0x0A) (hp : ∀ c ∈ f.path, c.toNat ≠ 0x0A) :
    ∃ txt P, Generates version f txt ∧ (∀ u, Generates version f u → u = txt) ∧ GoParse.Reads txt P ∧ compiles P = true ∧
      ∀ m t, f.types[m]? = some t → ∀ x : V, x.OfField f.schema (.one .message m false) →
        (∀ depth, 2 * x.depth ≤ depth → ∀ rd inp,
          callMethod P rd depth (camel t.1) go!"Encode" (.data x) [.buffer] inp = .ok [] (some (.data x)) (f.schema.layout m x) inp) ∧
        ∀ (b : Bytes) (fuel depth : Nat), 2 * fuel + 1 ≤ depth → Decode ver f.schema fuel m x b ≠ .overflow → ∀ inp,
          Returns (callMethod P ver.codec depth (camel t.1) go!"Decode" (.data x) [.data (.scalar (.bytes b))] inp) (Decode ver f.schema fuel m x b) := by
  obtain ⟨txt, h1, h2, h3⟩ := C85_reads version f h.plain.wf hv hp
  exact ⟨txt, program f, h1, h2, (h3 _).2 rfl, GoCheck.compiles_program h, fun m t ht x hx =>
    ⟨fun d hd rd inp => C86_encode f h.plain m t ht x hx d hd rd inp, fun b fuel d hd ho inp => C87_decode f h.plain h.unhidden m t ht x hx b fuel d hd ho inp⟩⟩

/-! ## Files that meet the hypotheses, and files that do not -/

theorem shopFile_compilable : shopFile.Compilable where
  plain := shopFile_plain
  unhidden := shopFile_unhidden
  messages := by decide +kernel
  fields := by decide +kernel
  package := by decide +kernel
  enums := by decide +kernel

/-- The hypotheses of `C88_exact_partial`. -/
example : shopFile.OwnNames ∧ ∀ t ∈ shopFile.types, ∀ g ∈ t.2, g.shape = .many → g.kind = .enum → g.type ≠ str!"uint32" :=
  ⟨shopFile_plain.closed.ownNames, by decide +kernel⟩

example : compiles (program shopFile) = true := GoCheck.compiles_program shopFile_compilable

example : (shopFile.types.length, (program shopFile).length) = (2, 23) := by cases lib <;> decide +kernel

/-- A file with a repeated field of bytes. -/
example : compiles (program orders) = false :=
  C88_defects (lib := lib) orders orders_wf (.inr (.inr (.inr ⟨(str!"shop.v1.Order", _), List.mem_of_getElem? (i := 1) rfl, .inr (.inr ⟨⟨str!"blobs", .many, .bytes, []⟩, List.mem_of_getElem? (i := 4) rfl, .inr (.inl ⟨rfl, rfl⟩)⟩)⟩)))

/-- The checker itself says so, and also for the enum that is hidden by a variable, for a file without messages and for one that
refers to a type that is not there. -/
example : compiles (program orders) = false := by cases lib <;> decide +kernel

example : compiles (program shownFile) = true ∧ compiles (program hiddenFile) = false := by cases lib <;> decide +kernel

example : compiles (program { shopFile with messages := [] }) = false := by cases lib <;> decide +kernel

example : compiles (program { shopFile with enums := [] }) = false := by cases lib <;> decide +kernel

example : compiles (program { shopFile with package := str!"x.main" }) = false := by cases lib <;> decide +kernel

end Props
