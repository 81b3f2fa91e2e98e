import Verif.GoV1.Pool

/-!
# Properties of the v1 decoder pool under every interleaving (C29)

`run h = some s`: `s` is the state after the interleaving `h` (newest step first).  `Disciplined h`:
clients only use and return decoders they own.  `owner h p = some (g, b, rs)`: `GetDecoder(b)` returned `p`
to `g`, which has since made the calls `rs` and not returned it.  See GoV1/Pool.lean.
-/

namespace Props

open Spec GoV1 GoV1.Pool

/-- When `GetDecoder(b)` returns (with a pooled or with a new decoder), nobody else owns the decoder, it is
neither in the pool nor on its way into it or out of it, and it reads exactly `b`. -/
theorem C29_get_exclusive (h : List Ev) (hd : Disciplined h) (s s' : State) (hr : run h = some s) (g : Gid)
    (p : Ptr) (b : Bytes) (e : Ev) (he : e = .hitSet g p b ∨ e = .miss g p b) (hs : step s e = some s') :
    owner h p = none ∧ p ∉ s'.pooled ∧ (∀ g', (g', p) ∉ s'.getting ∧ (g', p) ∉ s'.returning) ∧
      s'.heap p = some (some b) := by
  have i := inv_run h s hd hr
  have hd' : Disciplined (e :: h) := by rcases he with rfl | rfl <;> exact hd
  have i' := inv_step i e hd' hs
  have ho' : owner (e :: h) p = some (g, b, []) := by rcases he with rfl | rfl <;> simp [owner]
  have hnf := i'.owned_not_free ho'
  simp only [State.free, List.mem_append, not_or] at hnf
  refine ⟨?_, hnf.1, fun g' => ⟨fun hg => hnf.2.1 (List.mem_map.mpr ⟨_, hg, rfl⟩),
    fun hg => hnf.2.2 (List.mem_map.mpr ⟨_, hg, rfl⟩)⟩, i'.owned p g b [] ho'⟩
  rcases he with rfl | rfl
  · simp only [step] at hs
    split at hs
    · rename_i hp
      exact (i.free p (by simp only [State.free, List.mem_append]; exact .inr (.inl (List.mem_map.mpr ⟨_, hp, rfl⟩)))).1
    · simp at hs
  · simp only [step] at hs
    split at hs
    · rename_i hp
      cases ho : owner h p with
      | none => rfl
      | some x =>
        have := i.owned p x.1 x.2.1 x.2.2 ho
        rw [hp] at this; cases this
    · simp at hs

/-- While a goroutine owns a decoder no other `GetDecoder` can hand it out. -/
theorem C29_owned_is_unreachable (h : List Ev) (hd : Disciplined h) (s : State) (hr : run h = some s)
    (p : Ptr) (x) (ho : owner h p = some x) :
    ∀ g' b', step s (.hit g' p) = none ∧ step s (.hitSet g' p b') = none ∧ step s (.miss g' p b') = none ∧
      step s (.retPut g' p) = none := by
  have i := inv_run h s hd hr
  have hnf := i.owned_not_free ho
  have hc := i.owned p x.1 x.2.1 x.2.2 ho
  simp only [State.free, List.mem_append, not_or] at hnf
  intro g' b'
  have h1 : (g', p) ∉ s.getting := fun hg => hnf.2.1 (List.mem_map.mpr ⟨_, hg, rfl⟩)
  have h2 : (g', p) ∉ s.returning := fun hg => hnf.2.2 (List.mem_map.mpr ⟨_, hg, rfl⟩)
  simp [step, hnf.1, h1, h2, hc]

/-- Whatever other goroutines do, and whatever the decoder was used for in earlier lives, its unread input is
what the owner's own calls left of the input the owner passed to `GetDecoder`; so every call of the owner
returns what it would return on a private decoder. -/
theorem C29_reads_own_input (h : List Ev) (hd : Disciplined h) (s : State) (hr : run h = some s)
    (g : Gid) (p : Ptr) (b : Bytes) (rs : List Req) (ho : owner h p = some (g, b, rs)) :
    s.heap p = some (some (rs.foldl afterRead b)) :=
  (inv_run h s hd hr).owned p g b rs ho

/-- A decoder in the pool, and one a goroutine is just returning, references no input. -/
theorem C29_returned_holds_no_input (h : List Ev) (hd : Disciplined h) (s : State) (hr : run h = some s)
    (p : Ptr) (hp : p ∈ s.pooled ∨ ∃ g, (g, p) ∈ s.returning) : s.heap p = some none := by
  refine ((inv_run h s hd hr).free p ?_).2
  simp only [State.free, List.mem_append]
  rcases hp with hp | ⟨g, hp⟩
  · exact .inl hp
  · exact .inr (.inr (List.mem_map.mpr ⟨_, hp, rfl⟩))

/-- A return by the owner always goes through and frees the decoder for the next `GetDecoder`. -/
theorem C29_return_completes (h : List Ev) (s : State) (hr : run h = some s) (g : Gid) (p : Ptr)
    (hd : Disciplined (.retClear g p :: h)) (g' : Gid) (b' : Bytes) :
    ∃ s1 s2 s3 s4, step s (.retClear g p) = some s1 ∧ step s1 (.retPut g p) = some s2 ∧
      step s2 (.hit g' p) = some s3 ∧ step s3 (.hitSet g' p b') = some s4 ∧ s4.heap p = some (some b') := by
  have i := inv_run h s hd.tail hr
  obtain ⟨⟨⟨b, rs⟩, ho⟩, _⟩ := hd
  have hc := i.owned p g b rs ho
  exact ⟨_, _, _, _, by simp only [step, hc]; rfl, by simp [step]; rfl, by simp [step]; rfl,
    by simp [step]; rfl, by simp [State.set]⟩

/-- Two goroutines pass one decoder through the pool while a third is inside `ReturnDecoder` with another. -/
def demoDecoders : List Pool.Ev :=
  [.use 1 0 .bool, .hitSet 1 0 [7, 1, 0], .hit 1 0, .retPut 0 0, .retClear 2 1, .retClear 0 0,
   .use 0 0 .uint8, .miss 2 1 [0], .miss 0 0 [8, 5, 8, 6]]

example : Disciplined demoDecoders ∧ owner demoDecoders 0 = some (1, [7, 1, 0], [.bool]) ∧
    owner (demoDecoders.drop 6) 0 = some (0, [8, 5, 8, 6], [.uint8]) := by
  refine ⟨?_, rfl, rfl⟩
  simp [Disciplined, demoDecoders, owner]

example : ∃ s, run demoDecoders = some s ∧ s.heap 0 = some (some [0]) ∧ s.heap 1 = some none ∧
    s.returning = [(2, 1)] := by
  refine ⟨_, rfl, by decide, by decide, by decide⟩

/-- The discipline is needed: after a double return two goroutines own the same decoder, and the first one
reads the second one's input. -/
theorem C29_double_return_breaks_exclusivity : ∃ s,
    run [.hitSet 2 0 [7, 1], .hitSet 1 0 [7, 0], .hit 2 0, .hit 1 0, .retPut 0 0, .retPut 0 0,
      .retClear 0 0, .retClear 0 0, .miss 0 0 [0]] = some s ∧ s.heap 0 = some (some [7, 1]) := by
  refine ⟨_, rfl, by decide⟩

end Props
