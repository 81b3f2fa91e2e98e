import Verif.Text.TsScopeFile

/-!
# What `encode` and `decode` of generated TypeScript classes pass on

Readings of the syntax tree: the calls in a statement with their arguments, the variables that it mentions, the objects that it makes.
-/

namespace TsAst

open Text hiding Tok

/-- The arguments of a list. -/
def Expr.list : Expr → List Expr
  | .acons a rest => a :: rest.list
  | _ => []

/-- The functions and methods that an expression calls, with the arguments. -/
def Expr.calls : Expr → List (Ident × List Expr)
  | .call (.var n) args => (n, args.list) :: args.calls
  | .call (.field e n) args => (n, args.list) :: (e.calls ++ args.calls)
  | .call f args => f.calls ++ args.calls
  | .field e _ => e.calls
  | .new _ _ args => args.calls
  | .as e _ => e.calls
  | .obj1 _ e => e.calls
  | .obj2 _ e _ f => e.calls ++ f.calls
  | .acons a rest => a.calls ++ rest.calls
  | _ => []

/-- The functions and methods that a statement calls, with the arguments; `forEach` is not counted. -/
def Stmt.calls : Stmt → List (Ident × List Expr)
  | .skip => []
  | .seq s rest => s.calls ++ rest.calls
  | .let1 _ e => e.calls
  | .const1 _ e => e.calls
  | .constT _ _ e => e.calls
  | .assign l e _ => l.calls ++ e.calls
  | .expr e => e.calls
  | .forEach e _ b => e.calls ++ b.calls
  | .for1 _ e b => e.calls ++ b.calls
  | .ret e => e.calls

/-- The variables and functions that an expression mentions, once for every time. -/
def Expr.vars : Expr → List Ident
  | .var n => [n]
  | .field e _ => e.vars
  | .call f args => f.vars ++ args.vars
  | .new n _ args => n :: args.vars
  | .as e _ => e.vars
  | .obj1 _ e => e.vars
  | .obj2 _ e _ f => e.vars ++ f.vars
  | .acons a rest => a.vars ++ rest.vars
  | _ => []

/-- The variables and functions that a statement mentions other than by declaring them, once for every time. -/
def Stmt.vars : Stmt → List Ident
  | .skip => []
  | .seq s rest => s.vars ++ rest.vars
  | .let1 _ e => e.vars
  | .const1 _ e => e.vars
  | .constT _ _ e => e.vars
  | .assign l e _ => l.vars ++ e.vars
  | .expr e => e.vars
  | .forEach e _ b => e.vars ++ b.vars
  | .for1 _ e b => e.vars ++ b.vars
  | .ret e => e.vars

/-- The variables that a statement declares, with what they are set to, in the block it stands in. -/
def Stmt.inits : Stmt → List (Ident × Expr)
  | .seq s rest => s.inits ++ rest.inits
  | .let1 n e => [(n, e)]
  | .const1 n e => [(n, e)]
  | .constT n _ e => [(n, e)]
  | _ => []

/-- The properties that an expression reads from variables: the variable and the name of the property. -/
def Expr.reads : Expr → List (Ident × Ident)
  | .field (.var x) p => [(x, p)]
  | .field e _ => e.reads
  | .call f args => f.reads ++ args.reads
  | .new _ _ args => args.reads
  | .as e _ => e.reads
  | .obj1 _ e => e.reads
  | .obj2 _ e _ f => e.reads ++ f.reads
  | .acons a rest => a.reads ++ rest.reads
  | _ => []

/-- The properties that a statement reads from variables; what loops and functions in it do is left out. -/
def Stmt.reads : Stmt → List (Ident × Ident)
  | .skip => []
  | .seq s rest => s.reads ++ rest.reads
  | .let1 _ e => e.reads
  | .const1 _ e => e.reads
  | .constT _ _ e => e.reads
  | .assign l e _ => l.reads ++ e.reads
  | .expr e => e.reads
  | .forEach e _ _ => e.reads
  | .for1 _ e _ => e.reads
  | .ret e => e.reads

/-- The bodies of the `for` loops of a block. -/
def Stmt.loops : Stmt → List Stmt
  | .seq s rest => s.loops ++ rest.loops
  | .for1 _ _ b => [b]
  | _ => []

/-- The bodies of the methods of this name in a class. -/
def Item.bodies (static : Bool) (name : Ident) : Item → List Stmt
  | .cls _ ms => ms.flatMap (Member.body static name)
  | _ => []

/-- `new Map()` as the property `value` of an object. -/
def emptyMap : Expr := .obj1 go!"value" (.new go!"Map" false .anil)

/-- `[]` as the property `value` of an object. -/
def emptyArray : Expr := .obj1 go!"value" .empty

end TsAst

namespace TsText

open Utils Text TsAst
open Gen (PKind)
open GoText (FieldD MsgD FileD IsIdent IsDotted decimal)
open Package (EnumD qualify)
open RustText (FieldWf MsgWf FileWf)

theorem calls_block (ss : List Stmt) : (block ss).calls = ss.flatMap Stmt.calls := by
  induction ss with
  | nil => rfl
  | cons s ss ih => show s.calls ++ (block ss).calls = _; rw [ih, List.flatMap_cons]

theorem vars_block (ss : List Stmt) : (block ss).vars = ss.flatMap Stmt.vars := by
  induction ss with
  | nil => rfl
  | cons s ss ih => show s.vars ++ (block ss).vars = _; rw [ih, List.flatMap_cons]

theorem inits_block (ss : List Stmt) : (block ss).inits = ss.flatMap Stmt.inits := by
  induction ss with
  | nil => rfl
  | cons s ss ih => show s.inits ++ (block ss).inits = _; rw [ih, List.flatMap_cons]

/-! ## The bodies of a file -/

def encodeStmts (fs : List FieldD) : List Stmt :=
  [Stmt.let1 go!"encoded" (.var go!"buf")] ++
    (fs.filter FieldD.isValue).map (fun f : FieldD => encValue (lower f.name) f.kind) ++
    (fs.filter FieldD.isSlice).flatMap (fun f : FieldD => encSlice (lower f.name) f.kind) ++
    (fs.filter FieldD.isMessage).flatMap encMessageField ++ [Stmt.ret encoded]

def decodeStmts (t : Bytes × List FieldD) : List Stmt :=
  [Stmt.let1 go!"decoded" (.var go!"buf")] ++
    (t.2.filter FieldD.isSlice).flatMap (fun f : FieldD => decSlice (lower f.name) f.kind (camel f.type)) ++
    (t.2.filter FieldD.isMessage).flatMap decMessageField ++
    (t.2.filter FieldD.isValue).flatMap (fun f : FieldD => decOther (lower f.name) f.kind (camel f.type)) ++
    [Stmt.ret (.obj2 go!"buf" decoded go!"value" (.new (camel t.1) true (argsOf (
      (t.2.filter FieldD.isValue).map argOf ++ (t.2.filter FieldD.isSlice).map argOf ++ (t.2.filter FieldD.isMessage).map argOf))))]

theorem property_none (s : Bool) (n : Ident) (fs : List FieldD) : (fs.flatMap fun f => property (lower f.name) (fieldTy f)).flatMap (Member.body s n) = [] := by
  rw [property_flat (Member.body s n) fs (fun _ => []) fun _ _ => rfl]
  exact flatMap_nil' fun _ _ => rfl

theorem bodies_encode (t : Bytes × List FieldD) : (classItem t.1 t.2).bodies false go!"encode" = [block (encodeStmts t.2)] := by
  rw [classItem, Item.bodies, List.flatMap_append, List.flatMap_append, property_none]
  simp [Member.body, encodeMethod, decodeMethod, encodeStmts]

theorem bodies_decode (t : Bytes × List FieldD) : (classItem t.1 t.2).bodies true go!"decode" = [block (decodeStmts t)] := by
  rw [classItem, Item.bodies, List.flatMap_append, List.flatMap_append, property_none]
  simp [Member.body, encodeMethod, decodeMethod, decodeStmts]

theorem bodies_program {deps : List Bytes} {f : FileD} {s : Bool} {n : Ident} {g : Bytes × List FieldD → Stmt}
    (h : ∀ t : Bytes × List FieldD, (classItem t.1 t.2).bodies s n = [g t]) (b : Stmt) :
    b ∈ (program deps f).flatMap (Item.bodies s n) ↔ ∃ t ∈ f.types, b = g t := by
  constructor
  · intro hb
    obtain ⟨i, hi, hb⟩ := List.mem_flatMap.mp hb
    rcases items_program hi with rfl | ⟨e, he, rfl⟩ | ⟨t, ht, rfl⟩
    · cases hb
    · cases hb
    · rw [h] at hb
      exact ⟨t, ht, List.mem_singleton.mp hb⟩
  · rintro ⟨t, ht, rfl⟩
    exact List.mem_flatMap.mpr ⟨_, classItem_mem ht, by rw [h]; simp⟩

/-! ## `encode` hands on what it has encoded -/

/-- A call that is given the bytes so far. -/
def Threads (c : Ident × List Expr) : Prop := c.2.head? = some (.var go!"encoded")

theorem threads_value (f : FieldD) : ∀ c ∈ (encValue (lower f.name) f.kind).calls, Threads c := by
  obtain ⟨n, s, k, t⟩ := f
  intro c hc
  have : ∃ a, (encValue (lower n) k).calls = [(encoder k, encoded :: a)] := by cases k <;> exact ⟨_, rfl⟩
  obtain ⟨a, this⟩ := this
  rw [this, List.mem_singleton] at hc
  subst hc
  rfl

theorem threads_message (f : FieldD) : ∀ c ∈ (encMessageField f).flatMap Stmt.calls, Threads c := by
  obtain ⟨n, s, k, t⟩ := f
  intro c hc
  cases s with
  | one r =>
    have : (encMessageField ⟨n, .one r, k, t⟩).flatMap Stmt.calls = [(go!"encode", [encoded])] := rfl
    rw [this, List.mem_singleton] at hc
    subst hc
    rfl
  | many =>
    have : (encMessageField ⟨n, .many, k, t⟩).flatMap Stmt.calls = [(go!"encode", [encoded])] := rfl
    rw [this, List.mem_singleton] at hc
    subst hc
    rfl
  | map kk =>
    have : ∃ a e l, (encMessageField ⟨n, .map kk, k, t⟩).flatMap Stmt.calls = [(go!"encodeMap", encoded :: a), (encoder kk, [encoded, .var go!"k"]), (e, encoded :: l)] := by
      cases k <;> exact ⟨_, _, _, rfl⟩
    obtain ⟨a, e, l, this⟩ := this
    rw [this] at hc
    simp only [List.mem_cons, List.not_mem_nil, or_false] at hc
    rcases hc with rfl | rfl | rfl <;> rfl

theorem threads_slice (f : FieldD) : (∀ c ∈ (encSlice (lower f.name) f.kind).flatMap Stmt.calls, Threads c) ↔ f.kind = .message := by
  obtain ⟨n, s, k, t⟩ := f
  by_cases hk : k = .message
  · subst hk
    refine iff_of_true (fun c hc => ?_) rfl
    have : (encSlice (lower n) .message).flatMap Stmt.calls = [(go!"encodeArray", [encoded, .field (priv (lower n)) go!"length", kindOf .message]), (go!"encode", [encoded])] := rfl
    rw [this] at hc
    simp only [List.mem_cons, List.not_mem_nil, or_false] at hc
    rcases hc with rfl | rfl <;> rfl
  · refine iff_of_false (fun h => ?_) hk
    have : (go!"encodeArray", [Expr.field (priv (lower n)) go!"length", kindOf k]) ∈ (encSlice (lower n) k).flatMap Stmt.calls := by
      cases k <;> first | exact absurd rfl hk | exact List.mem_cons_self ..
    have := h _ this
    exact absurd (Option.some.inj this) (by simp [priv])

theorem threads_encode (fs : List FieldD) : (∀ c ∈ (block (encodeStmts fs)).calls, Threads c) ↔ ∀ x ∈ fs, x.shape = .many → x.kind = .message := by
  have hm : ∀ x : FieldD, x.shape = .many ↔ x.isSlice = true := by
    intro x
    obtain ⟨n, s, k, t⟩ := x
    cases s <;> simp [FieldD.isSlice]
  rw [calls_block]
  constructor
  · intro h x hx hs
    refine (threads_slice x).mp fun c hc => h c ?_
    rw [encodeStmts]
    simp only [List.flatMap_append, List.mem_append]
    exact .inl (.inl (.inr (by
      obtain ⟨s, hs', hc⟩ := List.mem_flatMap.mp hc
      exact List.mem_flatMap.mpr ⟨s, List.mem_flatMap.mpr ⟨x, List.mem_filter.mpr ⟨hx, (hm x).mp hs⟩, hs'⟩, hc⟩)))
  · intro h c hc
    rw [encodeStmts] at hc
    simp only [List.flatMap_append, List.mem_append] at hc
    rcases hc with (((hc | hc) | hc) | hc) | hc
    · cases hc
    · obtain ⟨s, hs, hc⟩ := List.mem_flatMap.mp hc
      obtain ⟨x, _, rfl⟩ := List.mem_map.mp hs
      exact threads_value x c hc
    · obtain ⟨s, hs, hc⟩ := List.mem_flatMap.mp hc
      obtain ⟨x, hx, hs⟩ := List.mem_flatMap.mp hs
      obtain ⟨hx, hsl⟩ := List.mem_filter.mp hx
      exact (threads_slice x).mpr (h x hx ((hm x).mpr hsl)) c (List.mem_flatMap.mpr ⟨s, hs, hc⟩)
    · obtain ⟨s, hs, hc⟩ := List.mem_flatMap.mp hc
      obtain ⟨x, _, hs⟩ := List.mem_flatMap.mp hs
      exact threads_message x c (List.mem_flatMap.mpr ⟨s, hs, hc⟩)
    · cases hc

/-! ## `decode` and the collections that it hands to the constructor -/

/-- Names that the code for a field mentions besides its own variables. -/
def Other (f : FieldD) (v : Ident) : Prop :=
  v = go!"decoded" ∨ v = go!"Map" ∨ (f.kind = .message ∧ v = camel f.type) ∨ v ∈ inner ∨ v ∈ library

theorem decoder_library (k : PKind) : decoder k ∈ library := by cases k <;> decide +kernel

theorem readInto_vars {n raw : Ident} {buf : Expr} {k : PKind} {t : Ident} {ty : Ty} {v : Ident} (hv : v ∈ (readInto n raw buf k t ty).flatMap Stmt.vars) :
    v = n ∨ (k = .enum ∧ (v = raw ∨ v ∈ buf.vars)) ∨ v = go!"decoded" ∨ (k = .message ∧ v = t) ∨ v ∈ library := by
  have hd := decoder_library k
  have he : go!"decodeUint32" ∈ library := by decide +kernel
  by_cases hk : k = .message
  · subst hk
    have : (readInto n raw buf .message t ty).flatMap Stmt.vars = [t, go!"decoded", go!"decoded", n] := rfl
    rw [this] at hv
    simp only [List.mem_cons, List.not_mem_nil, or_false] at hv
    rcases hv with h | h | h | h <;> simp [h]
  · by_cases hen : k = .enum
    · subst hen
      have : (readInto n raw buf .enum t ty).flatMap Stmt.vars = [go!"decodeUint32", go!"decoded", raw, go!"decoded"] ++ buf.vars := by
        simp [readInto, Stmt.vars, Expr.vars, fn, args1, decoded, setDecoded]
      rw [this] at hv
      simp only [List.mem_append, List.mem_cons, List.not_mem_nil, or_false] at hv
      rcases hv with (h | h | h | h) | h
      · subst h; simp [he]
      · simp [h]
      · simp [h]
      · simp [h]
      · simp [h]
    · have : (readInto n raw buf k t ty).flatMap Stmt.vars = [decoder k, go!"decoded", go!"decoded", n] := by
        cases k <;> first | exact absurd rfl hk | exact absurd rfl hen | rfl
      rw [this] at hv
      simp only [List.mem_cons, List.not_mem_nil, or_false] at hv
      rcases hv with h | h | h | h
      · subst h; simp [hd]
      · simp [h]
      · simp [h]
      · simp [h]

theorem array_library : go!"decodeArray" ∈ library ∧ go!"decodeMap" ∈ library := by decide +kernel

theorem temp_locals (f : FieldD) : temp (lower f.name) ∈ localsOf f := by
  unfold localsOf
  split
  · split <;> simp
  · simp

theorem slice_vars {f : FieldD} {v : Ident} (hs : f.isSlice = true) (hv : v ∈ (decSlice (lower f.name) f.kind (camel f.type)).flatMap Stmt.vars) :
    v ∈ localsOf f ∨ Other f v := by
  obtain ⟨n, s, k, t⟩ := f
  cases s <;> simp only [FieldD.isSlice, Bool.false_eq_true] at hs
  have hl : localsOf ⟨n, .many, k, t⟩ = [lower n, temp (lower n)] := rfl
  have ha := array_library.1
  have hi : ∀ x ∈ [go!"element", go!"elementEnum"], x ∈ inner := by decide
  rw [hl]
  simp only [List.mem_cons, List.not_mem_nil, or_false]
  simp only [decSlice, List.flatMap_cons, List.flatMap_nil, List.append_nil, Stmt.vars, Expr.vars, vars_block, List.flatMap_append, fn, args1, setDecoded, bufOf, valueOf, decoded,
    List.mem_append, List.mem_singleton, List.not_mem_nil, false_or, or_false] at hv
  rcases hv with (rfl | rfl) | (rfl | rfl) | rfl | hv | rfl | rfl
  · exact .inr (.inr (.inr (.inr (.inr ha))))
  · exact .inr (.inl rfl)
  · exact .inr (.inl rfl)
  · exact .inl (.inl rfl)
  · exact .inl (.inl rfl)
  · rcases readInto_vars hv with rfl | ⟨_, rfl | hv⟩ | rfl | ⟨hk, rfl⟩ | hv
    · exact .inr (.inr (.inr (.inr (.inl (hi _ (by simp))))))
    · exact .inr (.inr (.inr (.inr (.inl (hi _ (by simp))))))
    · have : v = go!"element" := by simpa [Expr.vars] using hv
      subst this
      exact .inr (.inr (.inr (.inr (.inl (hi _ (by simp))))))
    · exact .inr (.inl rfl)
    · exact .inr (.inr (.inr (.inl ⟨hk, rfl⟩)))
    · exact .inr (.inr (.inr (.inr (.inr hv))))
  · exact .inl (.inr rfl)
  · exact .inr (.inr (.inr (.inr (.inl (hi _ (by simp))))))

theorem map_vars {f : FieldD} {v : Ident} {kk : PKind} (hs : f.shape = .map kk) (hv : v ∈ (decMessageField f).flatMap Stmt.vars) :
    v = lower f.name ∨ Other f v := by
  have ha := array_library.2
  have hkk := decoder_library kk
  have hi : ∀ x ∈ [go!"key", go!"value", go!"valueEnum"], x ∈ inner := by decide
  rw [decMessageField, hs] at hv
  simp only [decMap, List.flatMap_cons, List.flatMap_nil, List.append_nil, Stmt.vars, Expr.vars, vars_block, List.flatMap_append, fn, args0, args1, args2, setDecoded, bufOf, valueOf, decoded,
    List.mem_append, List.mem_cons, List.mem_singleton, List.not_mem_nil, false_or, or_false] at hv
  rcases hv with (rfl | rfl) | (rfl | rfl) | rfl | rfl | (((rfl | rfl) | (rfl | rfl)) | hv) | rfl | rfl | rfl
  · exact .inr (.inr (.inr (.inr (.inr ha))))
  · exact .inr (.inl rfl)
  · exact .inr (.inl rfl)
  · exact .inl rfl
  · exact .inr (.inr (.inl rfl))
  · exact .inl rfl
  · exact .inr (.inr (.inr (.inr (.inr hkk))))
  · exact .inr (.inl rfl)
  · exact .inr (.inl rfl)
  · exact .inr (.inr (.inr (.inr (.inl (hi _ (by simp))))))
  · rcases readInto_vars hv with rfl | ⟨_, rfl | hv⟩ | rfl | ⟨hk, rfl⟩ | hv
    · exact .inr (.inr (.inr (.inr (.inl (hi _ (by simp))))))
    · exact .inr (.inr (.inr (.inr (.inl (hi _ (by simp))))))
    · have : v = go!"valueEnum" := by simpa [bufOf, Expr.vars] using hv
      subst this
      exact .inr (.inr (.inr (.inr (.inl (hi _ (by simp))))))
    · exact .inr (.inl rfl)
    · exact .inr (.inr (.inr (.inl ⟨hk, rfl⟩)))
    · exact .inr (.inr (.inr (.inr (.inr hv))))
  · exact .inl rfl
  · exact .inr (.inr (.inr (.inr (.inl (hi _ (by simp))))))
  · exact .inr (.inr (.inr (.inr (.inl (hi _ (by simp))))))

theorem message_vars {f : FieldD} {v : Ident} (hm : f.isMessage = true) (hv : v ∈ (decMessageField f).flatMap Stmt.vars) : v ∈ localsOf f ∨ Other f v := by
  cases hs : f.shape with
  | map kk =>
    rcases map_vars hs hv with rfl | hv
    · exact .inl (by rw [localsOf, hs]; simp)
    · exact .inr hv
  | many => rw [FieldD.isMessage, hs] at hm; cases hm
  | one r =>
    have ht : temp (lower f.name) ∈ localsOf f := temp_locals f
    have : (decMessageField f).flatMap Stmt.vars = [camel f.type, go!"decoded", go!"decoded", temp (lower f.name)] := by rw [decMessageField, hs]; rfl
    rw [this] at hv
    simp only [List.mem_cons, List.not_mem_nil, or_false] at hv
    rcases hv with h | h | h | h
    · exact .inr (.inr (.inr (.inl ⟨by simpa [FieldD.isMessage, hs] using hm, h⟩)))
    · exact .inr (.inl h)
    · exact .inr (.inl h)
    · subst h; exact .inl ht

theorem value_vars {f : FieldD} {v : Ident} (hs : f.isValue = true) (hv : v ∈ (decOther (lower f.name) f.kind (camel f.type)).flatMap Stmt.vars) :
    v ∈ localsOf f ∨ Other f v := by
  obtain ⟨n, sh, k, t⟩ := f
  cases sh <;> simp only [FieldD.isValue, decide_eq_true_eq, Bool.false_eq_true] at hs
  rename_i r
  have hen : k = .enum → localsOf ⟨n, .one r, k, t⟩ = [lower n ++ go!"U32", temp (lower n)] := fun h => by rw [localsOf, if_pos h]
  rcases readInto_vars hv with rfl | ⟨hk, rfl | hv⟩ | rfl | ⟨hk, rfl⟩ | hv
  · exact .inl (temp_locals ⟨n, .one r, k, t⟩)
  · exact .inl (by rw [hen hk]; simp)
  · have : v = lower n ++ go!"U32" := by simpa [bufOf, Expr.vars] using hv
    subst this
    exact .inl (by rw [hen hk]; simp)
  · exact .inr (.inl rfl)
  · exact absurd hk hs
  · exact .inr (.inr (.inr (.inr (.inr hv))))

theorem flatMap_inj {α β : Type} {g : α → List β} : ∀ {l : List α}, (l.flatMap g).Nodup → ∀ {x y : α} {v : β}, x ∈ l → y ∈ l → v ∈ g x → v ∈ g y → x = y
  | a :: l, h, x, y, v, hx, hy, hvx, hvy => by
    rw [List.flatMap_cons] at h
    obtain ⟨_, h2, h3⟩ := List.nodup_append.mp h
    rcases List.mem_cons.mp hx with hxa | hx' <;> rcases List.mem_cons.mp hy with hya | hy'
    · rw [hxa, hya]
    · subst hxa; exact absurd rfl (h3 v hvx v (List.mem_flatMap.mpr ⟨y, hy', hvy⟩))
    · subst hya; exact absurd rfl (h3 v hvy v (List.mem_flatMap.mpr ⟨x, hx', hvx⟩))
    · exact flatMap_inj h2 hx' hy' hvx hvy

theorem temps_sublist (l : List FieldD) : List.Sublist (l.map fun f => temp (lower f.name)) (l.flatMap localsOf) := by
  induction l with
  | nil => exact .refl _
  | cons f l ih =>
    rw [List.map_cons, List.flatMap_cons]
    exact (List.singleton_sublist.mpr (temp_locals f)).append ih

theorem args_vars (l : List FieldD) : (argsOf (l.map argOf)).vars = l.map fun f => temp (lower f.name) := by
  induction l with
  | nil => rfl
  | cons f l ih => rw [List.map_cons, List.map_cons, ← ih]; rfl

/-- The variable with the map that is handed to the constructor is mentioned there only. -/
theorem map_count {t : Bytes × List FieldD} (hw : ∀ x ∈ t.2, FieldWf x) (hf : IsDotted t.1) (hd : (classOf t).decodes.Nodup)
    (ht : ∀ v ∈ (classOf t).decodes, v ∉ taken) {x : FieldD} (hx : x ∈ t.2) {kk : PKind} (hs : x.shape = .map kk) :
    (block (decodeStmts t)).vars.count (temp (lower x.name)) = 1 := by
  have hD : (classOf t).decodes = go!"decoded" :: (t.2.filter FieldD.isSlice ++ t.2.filter FieldD.isMessage ++ t.2.filter FieldD.isValue).flatMap localsOf := rfl
  rw [hD] at hd ht
  obtain ⟨hdec, hnd⟩ := List.nodup_cons.mp hd
  have hmsg : x.isMessage = true := by rw [FieldD.isMessage, hs]
  have hxl : x ∈ t.2.filter FieldD.isSlice ++ t.2.filter FieldD.isMessage ++ t.2.filter FieldD.isValue :=
    List.mem_append_left _ (List.mem_append_right _ (List.mem_filter.mpr ⟨hx, hmsg⟩))
  have hv : temp (lower x.name) ∈ (t.2.filter FieldD.isSlice ++ t.2.filter FieldD.isMessage ++ t.2.filter FieldD.isValue).flatMap localsOf :=
    List.mem_flatMap.mpr ⟨x, hxl, temp_locals x⟩
  have htk := ht _ (List.mem_cons_of_mem _ hv)
  have hlow : startsUpper (temp (lower x.name)) = false := locals_lower (hw x hx).name _ (temp_locals x)
  have hbuf : temp (lower x.name) ≠ go!"buf" := fun h => htk (by rw [h]; simp [taken])
  have hdc : temp (lower x.name) ≠ go!"decoded" := fun h => hdec (h ▸ hv)
  have hcam : ∀ {s : Bytes}, IsDotted s → temp (lower x.name) ≠ camel s := fun hs' h => by
    rw [h, camel_upper hs'] at hlow; cases hlow
  have hoth : ∀ y ∈ t.2, ¬ Other y (temp (lower x.name)) := by
    rintro y hy (h | h | ⟨hk, h⟩ | h | h)
    · exact hdc h
    · rw [h] at hlow; revert hlow; decide +kernel
    · exact hcam ((hw y hy).type (.inl hk)) h
    · exact htk (List.mem_cons_of_mem _ (List.mem_append_left _ h))
    · exact htk (List.mem_cons_of_mem _ (List.mem_append_right _ h))
  have hown : ∀ y ∈ t.2.filter FieldD.isSlice ++ t.2.filter FieldD.isMessage ++ t.2.filter FieldD.isValue, temp (lower x.name) ∈ localsOf y → x = y :=
    fun y hy h => flatMap_inj hnd hxl hy (temp_locals x) h
  have hzero : ∀ (p : FieldD → Bool) (g : FieldD → List Stmt), (∀ y ∈ t.2.filter p, y ∈ t.2.filter FieldD.isSlice ++ t.2.filter FieldD.isMessage ++ t.2.filter FieldD.isValue) →
      (∀ y ∈ t.2.filter p, ∀ v, v ∈ (g y).flatMap Stmt.vars → v ∈ localsOf y ∨ Other y v) → (x ∈ t.2.filter p → temp (lower x.name) ∉ (g x).flatMap Stmt.vars) →
      (((t.2.filter p).flatMap g).flatMap Stmt.vars).count (temp (lower x.name)) = 0 := by
    intro p g hp hg hgx
    rw [List.count_eq_zero, List.flatMap_assoc]
    intro hc
    obtain ⟨y, hy, hc⟩ := List.mem_flatMap.mp hc
    rcases hg y hy _ hc with h | h
    · obtain rfl := hown y (hp y hy) h
      exact hgx hy hc
    · exact hoth y (List.mem_filter.mp hy).1 h
  have z1 := hzero FieldD.isSlice (fun f => decSlice (lower f.name) f.kind (camel f.type)) (fun y hy => List.mem_append_left _ (List.mem_append_left _ hy))
    (fun y hy v => slice_vars (List.mem_filter.mp hy).2) (fun h => by
      have := (List.mem_filter.mp h).2
      rw [FieldD.isSlice, hs] at this; cases this)
  have z2 := hzero FieldD.isMessage decMessageField (fun y hy => List.mem_append_left _ (List.mem_append_right _ hy))
    (fun y hy v => message_vars (List.mem_filter.mp hy).2) (fun _ h => by
      rcases map_vars hs h with h | h
      · have := congrArg List.length h
        simp [temp] at this
      · exact hoth x hx h)
  have z3 := hzero FieldD.isValue (fun f => decOther (lower f.name) f.kind (camel f.type)) (fun y hy => List.mem_append_right _ hy)
    (fun y hy v => value_vars (List.mem_filter.mp hy).2) (fun h => by
      have := (List.mem_filter.mp h).2
      rw [FieldD.isValue, hs] at this; cases this)
  have hret : (Stmt.ret (.obj2 go!"buf" decoded go!"value" (.new (camel t.1) true (argsOf (
      (t.2.filter FieldD.isValue).map argOf ++ (t.2.filter FieldD.isSlice).map argOf ++ (t.2.filter FieldD.isMessage).map argOf))))).vars =
      [go!"decoded", camel t.1] ++ (t.2.filter FieldD.isValue ++ t.2.filter FieldD.isSlice ++ t.2.filter FieldD.isMessage).map fun f => temp (lower f.name) := by
    rw [← args_vars, List.map_append, List.map_append]
    rfl
  have hperm : (t.2.filter FieldD.isValue ++ t.2.filter FieldD.isSlice ++ t.2.filter FieldD.isMessage).Perm
      (t.2.filter FieldD.isSlice ++ t.2.filter FieldD.isMessage ++ t.2.filter FieldD.isValue) := by
    rw [List.append_assoc]
    exact List.perm_append_comm
  have hone : ((t.2.filter FieldD.isValue ++ t.2.filter FieldD.isSlice ++ t.2.filter FieldD.isMessage).map fun f => temp (lower f.name)).count (temp (lower x.name)) = 1 := by
    have hn : ((t.2.filter FieldD.isValue ++ t.2.filter FieldD.isSlice ++ t.2.filter FieldD.isMessage).map fun f => temp (lower f.name)).Nodup :=
      (hperm.map _).nodup_iff.mpr ((temps_sublist _).nodup hnd)
    have hm := List.mem_map_of_mem (f := fun f : FieldD => temp (lower f.name)) (hperm.mem_iff.mpr hxl)
    have h1 := List.count_pos_iff.mpr hm
    have h2 := List.nodup_iff_count.mp hn (temp (lower x.name))
    omega
  rw [vars_block, decodeStmts]
  simp only [List.flatMap_append, List.count_append, z1, z2, z3, List.flatMap_cons, List.flatMap_nil, List.append_nil, hret, hone]
  have e1 : (Stmt.let1 go!"decoded" (.var go!"buf")).vars.count (temp (lower x.name)) = 0 := List.count_eq_zero.mpr (by
    show _ ∉ [go!"buf"]
    simpa using hbuf)
  have e2 : [go!"decoded", camel t.1].count (temp (lower x.name)) = 0 := List.count_eq_zero.mpr (by
    simp only [List.mem_cons, List.not_mem_nil, or_false, not_or]
    exact ⟨hdc, hcam hf⟩)
  rw [e1, e2]

theorem map_init {t : Bytes × List FieldD} {x : FieldD} (hx : x ∈ t.2) {kk : PKind} (hs : x.shape = .map kk) :
    (temp (lower x.name), emptyMap) ∈ (block (decodeStmts t)).inits := by
  have hmsg : x.isMessage = true := by rw [FieldD.isMessage, hs]
  rw [inits_block, decodeStmts]
  simp only [List.flatMap_append, List.mem_append]
  refine .inl (.inl (.inr (List.mem_flatMap.mpr ⟨.constT (temp (lower x.name)) (.obj1 go!"value" (.map (scalarTy kk) (elemTy x.kind (camel x.type)))) emptyMap, ?_, List.mem_singleton.mpr rfl⟩)))
  refine List.mem_flatMap.mpr ⟨x, List.mem_filter.mpr ⟨hx, hmsg⟩, ?_⟩
  rw [decMessageField, hs]
  simp [decMap, emptyMap, args0]

/-! ## Properties that an object does not have -/

theorem loops_block (ss : List Stmt) : (block ss).loops = ss.flatMap Stmt.loops := by
  induction ss with
  | nil => rfl
  | cons s ss ih => show s.loops ++ (block ss).loops = _; rw [ih, List.flatMap_cons]

theorem reads_block (ss : List Stmt) : (block ss).reads = ss.flatMap Stmt.reads := by
  induction ss with
  | nil => rfl
  | cons s ss ih => show s.reads ++ (block ss).reads = _; rw [ih, List.flatMap_cons]

/-- A block reads a property that is not there from an object which it has made with one property only. -/
def ReadsMissing (b : Stmt) : Prop := ∃ x n e p, (x, Expr.obj1 n e) ∈ b.inits ∧ (x, p) ∈ b.reads ∧ p ≠ n

theorem missing_slice (f : FieldD) : (∃ l ∈ (decSlice (lower f.name) f.kind (camel f.type)).flatMap Stmt.loops, ReadsMissing l) ↔ f.kind = .enum := by
  obtain ⟨n, s, k, t⟩ := f
  have hl : (decSlice (lower n) k (camel t)).flatMap Stmt.loops = [block (
     readInto go!"element" go!"elementEnum" (.field (.var go!"element") go!"bufEnum") k (camel t) (.arr (elemTy k (camel t))) ++
     [.expr (.call (.field (valueOf (temp (lower n))) go!"push") (args1 (valueOf go!"element")))])] := rfl
  show (∃ l ∈ (decSlice (lower n) k (camel t)).flatMap Stmt.loops, ReadsMissing l) ↔ k = .enum
  rw [hl]
  simp only [List.mem_singleton, exists_eq_left]
  by_cases hk : k = .enum
  · subst hk
    refine iff_of_true ⟨go!"element", go!"value", .as (.var go!"elementEnum") (.arr (elemTy .enum (camel t))), go!"bufEnum", ?_, ?_, by decide⟩ rfl
    · rw [inits_block]
      exact List.mem_append_right _ (List.mem_append_left _ (List.mem_singleton.mpr rfl))
    · rw [reads_block]
      exact List.mem_append_right _ (List.mem_append_right _ (List.mem_append_left _ (List.mem_singleton.mpr rfl)))
  · refine iff_of_false ?_ hk
    rintro ⟨x, m, e, p, hi, -, -⟩
    rw [inits_block] at hi
    cases k <;> first | exact absurd rfl hk | (simp [readInto, Stmt.inits, setDecoded, fn, decodeOf] at hi)

theorem missing_message (f : FieldD) (l : Stmt) (hl : l ∈ (decMessageField f).flatMap Stmt.loops) : ¬ ReadsMissing l := by
  obtain ⟨n, s, k, t⟩ := f
  cases s with
  | one r => cases hl
  | many => cases hl
  | map kk =>
    have hm : (decMessageField ⟨n, .map kk, k, t⟩).flatMap Stmt.loops = [block (
       [.let1 go!"key" (fn (decoder kk) (args1 decoded)), setDecoded (bufOf go!"key")] ++
       readInto go!"value" go!"valueEnum" (bufOf go!"valueEnum") k (camel t) (elemTy k (camel t)) ++
       [.expr (.call (.field (valueOf (lower n)) go!"set") (args2 (.var go!"key") (.var go!"value")))])] := rfl
    rw [hm, List.mem_singleton] at hl
    subst hl
    rintro ⟨x, m, e, p, hi, hr, hp⟩
    rw [inits_block] at hi
    rw [reads_block] at hr
    cases k
    case enum =>
      simp [readInto, Stmt.inits, setDecoded, fn] at hi
      simp [readInto, Stmt.reads, Expr.reads, setDecoded, fn, bufOf, valueOf, decoded, args1, args2] at hr
      obtain ⟨rfl, rfl, -⟩ := hi
      rcases hr with ⟨h, -⟩ | ⟨h, -⟩ | ⟨-, h⟩
      · revert h; decide
      · revert h; decide
      · exact hp h
    all_goals simp [readInto, Stmt.inits, setDecoded, fn, decodeOf] at hi

theorem missing_value (f : FieldD) : (decOther (lower f.name) f.kind (camel f.type)).flatMap Stmt.loops = [] := by
  obtain ⟨n, s, k, t⟩ := f
  cases k <;> rfl

theorem missing_decode (t : Bytes × List FieldD) : (∃ l ∈ (block (decodeStmts t)).loops, ReadsMissing l) ↔ ∃ x ∈ t.2, x.shape = .many ∧ x.kind = .enum := by
  have h0 : ((t.2.filter FieldD.isValue).flatMap fun f : FieldD => decOther (lower f.name) f.kind (camel f.type)).flatMap Stmt.loops = [] := by
    rw [List.flatMap_assoc]
    exact flatMap_nil' fun f _ => missing_value f
  rw [loops_block, decodeStmts]
  simp only [List.flatMap_append, h0, List.flatMap_cons, List.flatMap_nil, Stmt.loops, List.nil_append, List.append_nil]
  constructor
  · rintro ⟨l, hl, hm⟩
    rcases List.mem_append.mp hl with hl | hl
    · rw [List.flatMap_assoc] at hl
      obtain ⟨x, hx, hl⟩ := List.mem_flatMap.mp hl
      obtain ⟨hx, hs⟩ := List.mem_filter.mp hx
      refine ⟨x, hx, ?_, (missing_slice x).mp ⟨l, hl, hm⟩⟩
      unfold FieldD.isSlice at hs
      cases h : x.shape <;> rw [h] at hs <;> first | rfl | cases hs
    · rw [List.flatMap_assoc] at hl
      obtain ⟨x, hx, hl⟩ := List.mem_flatMap.mp hl
      exact absurd hm (missing_message x l hl)
  · rintro ⟨x, hx, hs, hk⟩
    obtain ⟨l, hl, hm⟩ := (missing_slice x).mpr hk
    refine ⟨l, List.mem_append_left _ ?_, hm⟩
    rw [List.flatMap_assoc]
    exact List.mem_flatMap.mpr ⟨x, List.mem_filter.mpr ⟨hx, by rw [FieldD.isSlice, hs]⟩, hl⟩

end TsText
