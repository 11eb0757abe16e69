import Verif.GenericLemmas
/-!
# Properties C01–C08: user data, conversions and element ids
-/
namespace Verif

/-! ## C01 -/

/-- C01 (documents): attaching data to every node and stripping it gives the document back. -/
theorem C01_strip_with_data {T : Type} (dflt : T) (d : Document) (x : T) :
    (d.withData dflt x).strip = d := by
  cases d
  simp [Document.withData, GDocument.strip, (Block.strip_withData_aux dflt).2.2.1]

/-- C01 (blocks). -/
theorem C01_strip_with_data_block {T : Type} (dflt : T) (b : Block) (x : T) :
    (b.withData dflt x).strip = b := (Block.strip_withData_aux dflt).1 b x

/-- C01 (list items). -/
theorem C01_strip_with_data_item {T : Type} (dflt : T) (b : ListItem) (x : T) :
    (b.withData dflt x).strip = b := (Block.strip_withData_aux dflt).2.1 b x

/-- C01 (inlines). -/
theorem C01_strip_with_data_inline {T : Type} (dflt : T) (i : Inline) (x : T) :
    (i.withData dflt x).strip = i := (Inline.strip_withData_aux dflt).1 i x

/-- C01, consequence: nothing is lost, even when different data is attached. -/
theorem C01_with_data_injective {T : Type} (dflt : T) (d e : Document) (x y : T)
    (h : d.withData dflt x = e.withData dflt y) : d = e := by
  rw [← C01_strip_with_data dflt d x, ← C01_strip_with_data dflt e y, h]

/-! ## C02 -/

/-- C02: regular → generic → regular. -/
theorem C02_from_to (d : Document) : fromGeneric (toGeneric d) = d :=
  C01_strip_with_data () d ()

/-- C02: generic → regular → generic, for unit data. -/
theorem C02_to_from (g : GDocument Unit) : toGeneric (fromGeneric g) = g := by
  apply GDocument.ext_strip_data
  · exact C02_from_to (fromGeneric g)
  · have len : ∀ a b : GDocument Unit, a.strip = b.strip → a.data.length = b.data.length := by
      intro a b h
      by_cases hl : a.data.length ≤ b.data.length
      · have : a.data ++ List.replicate (b.data.length - a.data.length) () = b.data ++ [] := by
          apply List.ext_getElem
          · simp; omega
          · intros; rfl
        simp only [GDocument.data, List.append_assoc] at this
        obtain ⟨h1, h2⟩ := GBlock.eq_of_strip_data_aux.2.2.1 a.blocks b.blocks _ _
          (by simpa [GDocument.strip] using h) this
        simp [GDocument.data, h1]
      · have : b.data ++ List.replicate (a.data.length - b.data.length) () = a.data ++ [] := by
          apply List.ext_getElem
          · simp; omega
          · intros; rfl
        simp only [GDocument.data, List.append_assoc] at this
        obtain ⟨h1, h2⟩ := GBlock.eq_of_strip_data_aux.2.2.1 b.blocks a.blocks _ _
          (by simpa [GDocument.strip] using h.symm) this
        simp [GDocument.data, h1]
    apply List.ext_getElem
    · exact len _ _ (C02_from_to (fromGeneric g))
    · intros; rfl

/-! ## C03 -/

/-- C03: after `with_data(d, x)` the document carries `x` and all other nodes the default. -/
theorem C03_with_data_root_only {T : Type} (dflt : T) (d : Document) (x : T) :
    (d.withData dflt x).userData = x ∧
    ∃ n, (d.withData dflt x).data = List.replicate n dflt ++ [x] := by
  refine ⟨rfl, ?_⟩
  obtain ⟨n, hn⟩ := (Block.data_withData_aux dflt).2.2.1 d.blocks
  exact ⟨n, by simp [Document.withData, GDocument.data, hn]⟩

/-- C03 for a single block: the block's own data is the last of its list. -/
theorem C03_with_data_root_only_block {T : Type} (dflt : T) (b : Block) (x : T) :
    ∃ n, (b.withData dflt x).data = List.replicate n dflt ++ [x] :=
  (Block.data_withData_aux dflt).1 b x

/-- C03 for a single inline. -/
theorem C03_with_data_root_only_inline {T : Type} (dflt : T) (i : Inline) (x : T) :
    ∃ n, (i.withData dflt x).data = List.replicate n dflt ++ [x] :=
  (Inline.data_withData_aux dflt).1 i x

/-! ## C04, C05 -/

/-- C04: whatever the closure does (state `σ`, panics), content is unchanged. -/
theorem C04_map_preserves_content {σ T U : Type} (f : T → StateT σ Option U) (d : GDocument T)
    (s s' : σ) (e : GDocument U) (h : mapUserData f d s = some (e, s')) : e.strip = d.strip := by
  have := mapUserData_sim f d s
  rw [h] at this
  obtain ⟨us, _, h2⟩ := this
  exact h2.2

/-- C05: mapping runs the closure over the data of all nodes, once each, children first and left
to right, threading its state; the node at position `i` receives the `i`-th result; a panic of
the closure is the only way to fail. -/
theorem C05_map_is_run_over_data {σ T U : Type} (f : T → StateT σ Option U) (d : GDocument T)
    (s : σ) :
    (mapUserData f d s).map (fun p => (p.1.data, p.2)) = mapMList f d.data s := by
  have := mapUserData_sim f d s
  cases h : mapUserData f d s with
  | none => rw [h] at this; simpa using this.symm
  | some p =>
    obtain ⟨e, s'⟩ := p
    rw [h] at this
    obtain ⟨us, h1, h2⟩ := this
    simp [h1, h2.1]

/-- C05, number of calls: a closure that counts its calls ends at the number of nodes. -/
theorem C05_call_count {T U : Type} (g : T → U) (d : GDocument T) (n : Nat) :
    (mapUserData (fun t => fun k => some (g t, k + 1)) d n).map (·.2) =
      some (n + d.data.length) := by
  have h := C05_map_is_run_over_data (fun t => fun (k : Nat) => some (g t, k + 1)) d n
  have run : ∀ (l : List T) (n : Nat),
      mapMList (fun t => fun (k : Nat) => some (g t, k + 1)) l n
        = some (l.map g, n + l.length) := by
    intro l
    induction l with
    | nil => intro n; rfl
    | cons a l ih =>
      intro n
      rw [mapMList_cons_run]
      simp [ih]
      omega
  rw [run] at h
  cases hm : mapUserData (fun t => fun (k : Nat) => some (g t, k + 1)) d n with
  | none => simp [hm] at h
  | some p => simp [hm] at h; simp [h.2]

/-- The content together with the data list determines a generic document, so C04 and C05
describe the result completely. -/
theorem C05_result_determined {T : Type} (d e : GDocument T) (hs : d.strip = e.strip)
    (hd : d.data = e.data) : d = e := GDocument.ext_strip_data d e hs hd

/-! ## C06 -/

/-- `map_user_data` with a pure closure. -/
def mapPure {T U : Type} (g : T → U) (d : GDocument T) : Option (GDocument U) :=
  (mapUserData (σ := Unit) (fun t s => some (g t, s)) d ()).map (·.1)

theorem mapMList_pure {T U : Type} (g : T → U) (l : List T) :
    mapMList (σ := Unit) (fun t s => some (g t, s)) l () = some (l.map g, ()) := by
  induction l with
  | nil => rfl
  | cons a l ih => rw [mapMList_cons_run]; simp [ih]

/-- C06: a pure closure never fails; its image has the same content and the mapped data. -/
theorem C06_map_pure {T U : Type} (g : T → U) (d : GDocument T) :
    ∃ e, mapPure g d = some e ∧ e.strip = d.strip ∧ e.data = d.data.map g := by
  have h := C05_map_is_run_over_data (σ := Unit) (fun t s => some (g t, s)) d ()
  rw [mapMList_pure] at h
  unfold mapPure
  cases hm : mapUserData (σ := Unit) (fun t s => some (g t, s)) d () with
  | none => simp [hm] at h
  | some p =>
    simp [hm] at h
    exact ⟨p.1, rfl, C04_map_preserves_content _ d () p.2 p.1 hm, h⟩

/-- C06: mapping the identity changes nothing. -/
theorem C06_map_id {T : Type} (d : GDocument T) : mapPure id d = some d := by
  obtain ⟨e, h1, h2, h3⟩ := C06_map_pure id d
  rw [h1]
  congr 1
  exact GDocument.ext_strip_data _ _ h2 (by simpa using h3)

/-- C06: mapping `g` then `h` is mapping `h ∘ g`. -/
theorem C06_map_comp {T U V : Type} (g : T → U) (h : U → V) (d : GDocument T) :
    (mapPure g d).bind (mapPure h) = mapPure (fun t => h (g t)) d := by
  obtain ⟨e, h1, h2, h3⟩ := C06_map_pure g d
  obtain ⟨e', h1', h2', h3'⟩ := C06_map_pure h e
  obtain ⟨e'', h1'', h2'', h3''⟩ := C06_map_pure (fun t => h (g t)) d
  rw [h1, Option.bind_some, h1', h1'']
  congr 1
  apply GDocument.ext_strip_data
  · rw [h2', h2, h2'']
  · rw [h3', h3, h3'']; simp

/-! ## C07 -/

theorem idClosure_run (ar : Arith) {T : Type} (l : List T) : ∀ n, n + l.length < u64Bound →
    mapMList (idClosure ar) l ⟨n⟩ = some (List.range' n l.length, ⟨n + l.length⟩) := by
  induction l with
  | nil => intro n _; rfl
  | cons a l ih =>
    intro n hn
    simp only [List.length_cons] at hn
    rw [mapMList_cons_run]
    have : idClosure ar a ⟨n⟩ = some (n, ⟨n + 1⟩) := by
      have : n + 1 < u64Bound := by omega
      simp [idClosure, IdGenerator.generate, this]
    rw [this]
    simp only [Option.bind_some]
    rw [ih (n + 1) (by omega)]
    simp [List.range'_succ]
    omega

theorem idClosure_overflow {T : Type} (l : List T) : ∀ n, l ≠ [] → n < u64Bound →
    u64Bound ≤ n + l.length → mapMList (idClosure .checked) l ⟨n⟩ = none := by
  induction l with
  | nil => intro n h; exact absurd rfl h
  | cons a l ih =>
    intro n _ hb hn
    rw [mapMList_cons_run]
    by_cases h : n + 1 < u64Bound
    · have : idClosure .checked a ⟨n⟩ = some (n, ⟨n + 1⟩) := by
        simp [idClosure, IdGenerator.generate, h]
      rw [this]
      simp only [Option.bind_some]
      simp only [List.length_cons] at hn
      rw [ih (n + 1) (by intro hl; simp [hl] at hn; omega) h (by omega)]
      rfl
    · have : idClosure .checked a ⟨n⟩ = none := by
        simp [idClosure, IdGenerator.generate, h]
      rw [this]
      rfl

/-- The number of nodes of a document (with the document node itself). -/
def Document.nodeCount (d : Document) : Nat := (toGeneric d).data.length

/-- C07: `add_ids_from(d, n)` numbers the nodes `n, n+1, …` in document order, children before
parents, the document last; content is unchanged.  The `u64` space must not be exhausted. -/
theorem C07_ids (ar : Arith) (d : Document) (n : Nat) (h : n + d.nodeCount < u64Bound) :
    ∃ e, addIdsFrom ar d n = some e ∧ e.strip = d ∧
      e.data = List.range' n d.nodeCount := by
  have h1 := C05_map_is_run_over_data (idClosure ar) (d.withDefaultData ()) ⟨n⟩
  rw [idClosure_run ar (d.withDefaultData ()).data n h] at h1
  unfold addIdsFrom IdGenerator.startingFrom
  cases hm : mapUserData (idClosure ar) (d.withDefaultData ()) ⟨n⟩ with
  | none => simp [hm] at h1
  | some p =>
    simp [hm] at h1
    refine ⟨p.1, rfl, ?_, h1.1⟩
    rw [C04_map_preserves_content _ _ _ _ _ hm]
    exact C01_strip_with_data () d ()

/-- C07, uniqueness stated directly: no two nodes get the same id. -/
theorem C07_ids_unique (ar : Arith) (d : Document) (n : Nat) (e : GDocument Nat)
    (h : n + d.nodeCount < u64Bound) (he : addIdsFrom ar d n = some e) :
    e.data.Nodup ∧ e.data.length = d.nodeCount ∧ ∀ i, i ∈ e.data ↔ n ≤ i ∧ i < n + d.nodeCount := by
  obtain ⟨e', h1, _, h3⟩ := C07_ids ar d n h
  rw [he] at h1
  cases h1
  rw [h3]
  refine ⟨List.nodup_range', by simp, fun i => by simp⟩

/-- C07: the document has the largest id. -/
theorem C07_document_last (ar : Arith) (d : Document) (n : Nat) (e : GDocument Nat)
    (h : n + d.nodeCount < u64Bound) (he : addIdsFrom ar d n = some e) :
    e.userData = n + d.nodeCount - 1 := by
  obtain ⟨e', h1, _, h3⟩ := C07_ids ar d n h
  rw [he] at h1
  cases h1
  have hp : 0 < d.nodeCount := by simp [Document.nodeCount, GDocument.data]
  have : e.data.getLast? = some e.userData := by simp [GDocument.data]
  obtain ⟨k, hk⟩ : ∃ k, d.nodeCount = k + 1 := ⟨d.nodeCount - 1, by omega⟩
  rw [h3, hk, List.range'_concat, List.getLast?_append] at this
  simp at this
  omega

/-- C07: `add_ids_to_document` is `add_ids_from` at 1. -/
theorem C07_add_ids_to_document (ar : Arith) (d : Document) :
    addIdsToDocument ar d = addIdsFrom ar d 1 := rfl

/-- C07: `add_ids_to_generic_document` ignores the old data. -/
theorem C07_generic_ignores_data (ar : Arith) {T : Type} (d : GDocument T)
    (h : 1 + d.data.length < u64Bound) :
    ∃ e, addIdsToGenericDocument ar d = some e ∧ e.strip = d.strip ∧
      e.data = List.range' 1 d.data.length := by
  have h1 := C05_map_is_run_over_data (idClosure ar) d ⟨1⟩
  rw [idClosure_run ar _ 1 h] at h1
  unfold addIdsToGenericDocument IdGenerator.new
  cases hm : mapUserData (idClosure ar) d ⟨1⟩ with
  | none => simp [hm] at h1
  | some p =>
    simp [hm] at h1
    exact ⟨p.1, rfl, C04_map_preserves_content _ _ _ _ _ hm, h1.1⟩

/-- C07, the error branch: in a build with overflow checks, running out of `u64` ids panics (and
by `C07_ids` this is the only panic). -/
theorem C07_overflow_panics (d : Document) (n : Nat) (hn : n < u64Bound)
    (h : u64Bound ≤ n + d.nodeCount) : addIdsFrom .checked d n = none := by
  have h1 := C05_map_is_run_over_data (idClosure .checked) (d.withDefaultData ()) ⟨n⟩
  rw [idClosure_overflow (d.withDefaultData ()).data n (by simp [GDocument.data]) hn h] at h1
  unfold addIdsFrom IdGenerator.startingFrom
  simpa using h1

theorem idClosure_wraps {T : Type} (l : List T) : ∀ n, n < u64Bound →
    mapMList (idClosure .wrapping) l ⟨n⟩ =
      some ((List.range l.length).map (fun i => (n + i) % u64Bound), ⟨(n + l.length) % u64Bound⟩) := by
  induction l with
  | nil => intro n hn; rw [List.length_nil, Nat.add_zero, Nat.mod_eq_of_lt hn]; rfl
  | cons a l ih =>
    intro n hn
    rw [mapMList_cons_run]
    have h1 : idClosure .wrapping a ⟨n⟩ = some (n, ⟨(n + 1) % u64Bound⟩) := by
      unfold idClosure IdGenerator.generate
      simp only
      split
      · rename_i h; rw [Nat.mod_eq_of_lt h]
      · rfl
    rw [h1]
    simp only [Option.bind_some]
    rw [ih _ (Nat.mod_lt _ (by decide))]
    simp only [Option.bind_some, List.length_cons, List.range_succ_eq_map, List.map_cons, List.map_map, Nat.add_zero]
    have h2 : ∀ i, ((n + 1) % u64Bound + i) % u64Bound = (n + (i + 1)) % u64Bound := by
      intro i
      rw [Nat.mod_add_mod]
      congr 1
      omega
    rw [h2, Nat.mod_eq_of_lt hn]
    simp only [Function.comp_def, h2]

/-- C07, builds without overflow checks: the ids go on from 0 behind the last `u64`, nothing panics, and the ids
are still different as long as there are not more nodes than `u64`s. -/
theorem C07_release (d : Document) (n : Nat) (hn : n < u64Bound) :
    ∃ e, addIdsFrom .wrapping d n = some e ∧ e.strip = d ∧
      e.data = (List.range d.nodeCount).map (fun i => (n + i) % u64Bound) ∧ (d.nodeCount ≤ u64Bound → e.data.Nodup) := by
  have h1 := C05_map_is_run_over_data (idClosure .wrapping) (d.withDefaultData ()) ⟨n⟩
  rw [idClosure_wraps (d.withDefaultData ()).data n hn] at h1
  unfold addIdsFrom IdGenerator.startingFrom
  cases hm : mapUserData (idClosure .wrapping) (d.withDefaultData ()) ⟨n⟩ with
  | none => simp [hm] at h1
  | some p =>
    simp [hm] at h1
    refine ⟨p.1, rfl, ?_, h1.1, ?_⟩
    · rw [C04_map_preserves_content _ _ _ _ _ hm]
      exact C01_strip_with_data () d ()
    · intro hc
      rw [h1.1]
      rw [List.nodup_iff_pairwise_ne, List.pairwise_map]
      refine List.Pairwise.imp_of_mem ?_ List.pairwise_lt_range
      intro a b ha hb hab he
      have hb' : b < u64Bound := Nat.lt_of_lt_of_le (List.mem_range.1 hb) hc
      have e1 := Nat.div_add_mod (n + a) u64Bound
      have e2 := Nat.div_add_mod (n + b) u64Bound
      rw [he] at e1
      have : u64Bound * ((n + a) / u64Bound) + (b - a) = u64Bound * ((n + b) / u64Bound) := by omega
      have h3 : u64Bound ∣ b - a := by
        have := (Nat.dvd_add_right (Nat.dvd_mul_right u64Bound ((n + a) / u64Bound))).1 (this ▸ Nat.dvd_mul_right _ _)
        exact this
      have := Nat.le_of_dvd (by omega) h3
      omega

/-- A document with a heading, nested emphasis, a list and a table. -/
def sampleDoc : Document := ⟨[
  .heading (.atx 1) [.text cs!"T", .strong [.text cs!"b"]],
  .list (.bullet .dash) [.mk (some .complete) [.paragraph [.link cs!"u" none [.text cs!"x"]]]],
  .table [[[.text cs!"h"]], [[.code cs!"c"]]] [.left]]⟩

example : sampleDoc.nodeCount = 13 := by decide
example : 7 + sampleDoc.nodeCount < u64Bound := by decide
example : ((addIdsFrom .checked sampleDoc 7).map (·.data)) = some (List.range' 7 13) := by decide
example : addIdsFrom .checked sampleDoc (u64Bound - 3) = none := by
  exact C07_overflow_panics _ _ (by decide) (by decide)
/-- A closure with state and one that panics: the hypotheses of C04 are met. -/
example : ((mapUserData (fun (t : Nat) => fun (s : Nat) => some (t + s, s + t))
    (sampleDoc.withData 1 5) 0).map (·.1.data)) =
      some [1, 2, 3, 4, 5, 6, 7, 8, 9, 10, 11, 12, 17] := by decide

/-! ## C08 -/

theorem expected_snoc_generate (start : Nat) (h : List IdOp) :
    IdOp.expected start (h ++ [.generate]) = IdOp.expected start h + 1 := by
  simp [IdOp.expected]
  omega

theorem expected_snoc_peek (start : Nat) (h : List IdOp) :
    IdOp.expected start (h ++ [.peek]) = IdOp.expected start h := by
  simp [IdOp.expected]

theorem expected_snoc_reset (start : Nat) (h : List IdOp) :
    IdOp.expected start (h ++ [.reset]) = 1 := by
  simp [IdOp.expected]

theorem run_expected (ar : Arith) (start : Nat) : ∀ (os done : List IdOp),
    (∀ pre suf, os = pre ++ .generate :: suf →
      IdOp.expected start (done ++ pre) + 1 < u64Bound) →
    IdOp.run ar ⟨IdOp.expected start done⟩ os =
      some (IdOp.expectedOutputs start done os, ⟨IdOp.expected start (done ++ os)⟩) := by
  intro os
  induction os with
  | nil => intro done _; simp [IdOp.run, IdOp.expectedOutputs]
  | cons o os ih =>
    intro done hb
    have hb' : ∀ pre suf, os = pre ++ .generate :: suf →
        IdOp.expected start (done ++ [o] ++ pre) + 1 < u64Bound := by
      intro pre suf h
      have := hb (o :: pre) suf (by simp [h])
      simpa using this
    have := ih (done ++ [o]) hb'
    cases o with
    | generate =>
      have h0 := hb [] os rfl
      simp only [List.append_nil] at h0
      rw [expected_snoc_generate] at this
      simp [IdOp.run, IdOp.exec, IdGenerator.generate, h0, this, IdOp.expectedOutputs]
    | peek =>
      rw [expected_snoc_peek] at this
      simp [IdOp.run, IdOp.exec, IdGenerator.peek, this, IdOp.expectedOutputs]
    | reset =>
      rw [expected_snoc_reset] at this
      simp [IdOp.run, IdOp.exec, IdGenerator.reset, this, IdOp.expectedOutputs]

/-- C08: over every history of calls on a generator created at `start`, as long as no `generate`
is attempted at the last `u64`, every call returns what the history prescribes and none panics. -/
theorem C08_history (ar : Arith) (start : Nat) (os : List IdOp)
    (h : ∀ pre suf, os = pre ++ .generate :: suf → IdOp.expected start pre + 1 < u64Bound) :
    IdOp.run ar (IdGenerator.startingFrom start) os =
      some (IdOp.expectedOutputs start [] os, ⟨IdOp.expected start os⟩) := by
  have := run_expected ar start os [] (by simpa using h)
  simpa [IdOp.expected, IdGenerator.startingFrom] using this

/-- C08: `peek` changes nothing and announces exactly what `generate` would return next. -/
theorem C08_peek (ar : Arith) (g : IdGenerator) :
    IdOp.exec ar g .peek = some (some g.peek, g) ∧
    ∀ r g', g.generate ar = some (r, g') → r = g.peek := by
  refine ⟨rfl, fun r g' h => ?_⟩
  unfold IdGenerator.generate at h
  split at h
  · simp at h; exact h.1.symm
  · cases ar <;> simp at h; exact h.1.symm

/-- C08, builds without overflow checks: every call returns what `peek` announces and goes on modulo the number
of `u64`s. -/
theorem C08_release (g : IdGenerator) (h : g.nextId < u64Bound) :
    g.generate .wrapping = some (g.peek, ⟨if g.peek + 1 = u64Bound then 0 else g.peek + 1⟩) := by
  unfold IdGenerator.generate IdGenerator.peek
  split
  · rw [if_neg (by omega)]
  · have : g.nextId + 1 = u64Bound := by omega
    simp [this]

/-- C08: exhaustion of `u64` is the only way a checked build fails. -/
theorem C08_panic_iff (g : IdGenerator) :
    g.generate .checked = none ↔ u64Bound ≤ g.nextId + 1 := by
  unfold IdGenerator.generate
  split <;> simp <;> omega

/-- C08: consecutive generates differ by exactly one; `reset` restarts at 1. -/
theorem C08_consecutive (ar : Arith) (g g' g'' : IdGenerator) (a b : Nat)
    (h1 : g.generate ar = some (a, g')) (h2 : g'.generate ar = some (b, g''))
    (hb : g.nextId + 1 < u64Bound) : b = a + 1 ∧ g.reset.peek = 1 := by
  simp [IdGenerator.generate, hb] at h1
  obtain ⟨rfl, rfl⟩ := h1
  refine ⟨?_, rfl⟩
  have := (C08_peek ar ⟨g.nextId + 1⟩).2 b g'' h2
  simpa [IdGenerator.peek] using this

example : IdOp.run .checked IdGenerator.new
    [.generate, .generate, .peek, .reset, .generate, .peek] =
    some ([some 1, some 2, some 3, none, some 1, some 2], ⟨2⟩) := by decide
example : IdOp.expectedOutputs 1 [] [.generate, .generate, .peek, .reset, .generate, .peek] =
    [some 1, some 2, some 3, none, some 1, some 2] := by decide

end Verif
