import Verif.GenericSpec
/-! # Helper lemmas for the generic AST (no property statements here) -/
namespace Verif

/-! ## strip ∘ with_data -/

theorem Inline.strip_withData_aux {T : Type} (dflt : T) :
    (∀ (i : Inline) (x : T), (i.withData dflt x).strip = i) ∧
    (∀ l : List Inline, GInline.stripL (Inline.withDataL dflt l) = l) := by
  apply Inline.ind <;> intros <;>
    simp_all [Inline.withData, Inline.withDataL, GInline.strip, GInline.stripL]

theorem Inline.stripL_withDataL {T : Type} (dflt : T) (l : List Inline) :
    GInline.stripL (Inline.withDataL dflt l) = l := (Inline.strip_withData_aux dflt).2 l

theorem table_strip {T : Type} (dflt : T) (r : List (List (List Inline))) :
    (r.map fun row => row.map fun cell => Inline.withDataL dflt cell).map
      (fun row => row.map fun cell => GInline.stripL cell) = r := by
  induction r with
  | nil => rfl
  | cons row r ih =>
    simp only [List.map_cons, ih, List.map_map]
    congr 1
    induction row with
    | nil => rfl
    | cons c row ih => simp only [List.map_cons, ih, Function.comp, Inline.stripL_withDataL]

theorem Block.strip_withData_aux {T : Type} (dflt : T) :
    (∀ (b : Block) (x : T), (b.withData dflt x).strip = b) ∧
    (∀ (i : ListItem) (x : T), (i.withData dflt x).strip = i) ∧
    (∀ l : List Block, GBlock.stripL (Block.withDataL dflt l) = l) ∧
    (∀ l : List ListItem, GListItem.stripL (ListItem.withDataL dflt l) = l) := by
  apply Block.ind
  case table =>
    intro r a x
    simp only [Block.withData, GBlock.strip, table_strip]
  all_goals
    intros
    simp_all [Block.withData, Block.withDataL, GBlock.strip, GBlock.stripL, ListItem.withData,
      ListItem.withDataL, GListItem.strip, GListItem.stripL, Inline.stripL_withDataL]

/-! ## A generic document is determined by its content and its data -/

theorem GInline.eq_of_strip_data_aux {T : Type} :
    (∀ (i j : GInline T) (r r' : List T), i.strip = j.strip → i.data ++ r = j.data ++ r' →
      i = j ∧ r = r') ∧
    (∀ (l m : List (GInline T)) (r r' : List T), GInline.stripL l = GInline.stripL m →
      GInline.dataL l ++ r = GInline.dataL m ++ r' → l = m ∧ r = r') := by
  apply GInline.ind
  case nil =>
    intro m r r' hs hd
    cases m <;> simp_all [GInline.stripL, GInline.dataL]
  case cons =>
    intro i l hi hl m r r' hs hd
    cases m with
    | nil => simp [GInline.stripL] at hs
    | cons j m =>
      simp only [GInline.stripL, List.cons.injEq] at hs
      simp only [GInline.dataL, List.append_assoc] at hd
      obtain ⟨h1, h2⟩ := hi j _ _ hs.1 hd
      obtain ⟨h3, h4⟩ := hl m _ _ hs.2 h2
      exact ⟨by rw [h1, h3], h4⟩
  case link =>
    intro d t c u hc j r r' hs hd
    cases j <;> simp [GInline.strip] at hs
    simp only [GInline.data, List.append_assoc] at hd
    obtain ⟨h1, h2⟩ := hc _ _ _ hs.2.2 hd
    simp_all
  case linkReference =>
    intro l t u hl ht j r r' hs hd
    cases j <;> simp [GInline.strip] at hs
    simp only [GInline.data, List.append_assoc] at hd
    obtain ⟨h1, h2⟩ := hl _ _ _ hs.1 hd
    obtain ⟨h3, h4⟩ := ht _ _ _ hs.2 h2
    simp_all
  case emphasis | strong | strikethrough =>
    intro c u hc j r r' hs hd
    cases j <;> simp [GInline.strip] at hs
    simp only [GInline.data, List.append_assoc] at hd
    obtain ⟨h1, h2⟩ := hc _ _ _ hs hd
    simp_all
  all_goals
    intros
    rename_i j r r' hs hd
    cases j <;> simp_all [GInline.strip, GInline.data]

theorem cells_eq {T : Type} : ∀ (l m : List (List (GInline T))) (r r' : List T),
    l.map GInline.stripL = m.map GInline.stripL →
    (l.map GInline.dataL).flatten ++ r = (m.map GInline.dataL).flatten ++ r' → l = m ∧ r = r'
  | [], [], r, r', _, hd => by simpa using hd
  | [], _ :: _, _, _, hs, _ => by simp at hs
  | _ :: _, [], _, _, hs, _ => by simp at hs
  | c :: l, c' :: m, r, r', hs, hd => by
    simp only [List.map_cons, List.cons.injEq] at hs
    simp only [List.map_cons, List.flatten_cons, List.append_assoc] at hd
    obtain ⟨h1, h2⟩ := GInline.eq_of_strip_data_aux.2 c c' _ _ hs.1 hd
    obtain ⟨h3, h4⟩ := cells_eq l m r r' hs.2 h2
    exact ⟨by rw [h1, h3], h4⟩

theorem rows_eq {T : Type} : ∀ (l m : List (List (List (GInline T)))) (r r' : List T),
    l.map (fun row => row.map fun c => GInline.stripL c) =
      m.map (fun row => row.map fun c => GInline.stripL c) →
    (l.flatten.map GInline.dataL).flatten ++ r = (m.flatten.map GInline.dataL).flatten ++ r' →
    l = m ∧ r = r'
  | [], [], r, r', _, hd => by simpa using hd
  | [], _ :: _, _, _, hs, _ => by simp at hs
  | _ :: _, [], _, _, hs, _ => by simp at hs
  | c :: l, c' :: m, r, r', hs, hd => by
    simp only [List.map_cons, List.cons.injEq] at hs
    simp only [List.map_append, List.flatten_cons, List.flatten_append, List.append_assoc] at hd
    obtain ⟨h1, h2⟩ := cells_eq c c' _ _ hs.1 hd
    obtain ⟨h3, h4⟩ := rows_eq l m r r' hs.2 h2
    exact ⟨by rw [h1, h3], h4⟩

theorem GBlock.eq_of_strip_data_aux {T : Type} :
    (∀ (i j : GBlock T) (r r' : List T), i.strip = j.strip → i.data ++ r = j.data ++ r' →
      i = j ∧ r = r') ∧
    (∀ (i j : GListItem T) (r r' : List T), i.strip = j.strip → i.data ++ r = j.data ++ r' →
      i = j ∧ r = r') ∧
    (∀ (l m : List (GBlock T)) (r r' : List T), GBlock.stripL l = GBlock.stripL m →
      GBlock.dataL l ++ r = GBlock.dataL m ++ r' → l = m ∧ r = r') ∧
    (∀ (l m : List (GListItem T)) (r r' : List T), GListItem.stripL l = GListItem.stripL m →
      GListItem.dataL l ++ r = GListItem.dataL m ++ r' → l = m ∧ r = r') := by
  apply GBlock.ind
  case nilB =>
    intro m r r' hs hd
    cases m <;> simp_all [GBlock.stripL, GBlock.dataL]
  case nilI =>
    intro m r r' hs hd
    cases m <;> simp_all [GListItem.stripL, GListItem.dataL]
  case consB =>
    intro i l hi hl m r r' hs hd
    cases m with
    | nil => simp [GBlock.stripL] at hs
    | cons j m =>
      simp only [GBlock.stripL, List.cons.injEq] at hs
      simp only [GBlock.dataL, List.append_assoc] at hd
      obtain ⟨h1, h2⟩ := hi j _ _ hs.1 hd
      obtain ⟨h3, h4⟩ := hl m _ _ hs.2 h2
      exact ⟨by rw [h1, h3], h4⟩
  case consI =>
    intro i l hi hl m r r' hs hd
    cases m with
    | nil => simp [GListItem.stripL] at hs
    | cons j m =>
      simp only [GListItem.stripL, List.cons.injEq] at hs
      simp only [GListItem.dataL, List.append_assoc] at hd
      obtain ⟨h1, h2⟩ := hi j _ _ hs.1 hd
      obtain ⟨h3, h4⟩ := hl m _ _ hs.2 h2
      exact ⟨by rw [h1, h3], h4⟩
  case item =>
    intro t b u hb j r r' hs hd
    obtain ⟨t', b', u'⟩ := j
    simp [GListItem.strip] at hs
    simp only [GListItem.data, List.append_assoc] at hd
    obtain ⟨h1, h2⟩ := hb _ _ _ hs.2 hd
    simp_all
  case paragraph =>
    intro c u j r r' hs hd
    cases j <;> simp [GBlock.strip] at hs
    simp only [GBlock.data, List.append_assoc] at hd
    obtain ⟨h1, h2⟩ := GInline.eq_of_strip_data_aux.2 _ _ _ _ hs hd
    simp_all
  case heading =>
    intro k c u j r r' hs hd
    cases j <;> simp [GBlock.strip] at hs
    simp only [GBlock.data, List.append_assoc] at hd
    obtain ⟨h1, h2⟩ := GInline.eq_of_strip_data_aux.2 _ _ _ _ hs.2 hd
    simp_all
  case definition =>
    intro l d t u j r r' hs hd
    cases j <;> simp [GBlock.strip] at hs
    simp only [GBlock.data, List.append_assoc] at hd
    obtain ⟨h1, h2⟩ := GInline.eq_of_strip_data_aux.2 _ _ _ _ hs.1 hd
    simp_all
  case table =>
    intro rows a u j r r' hs hd
    cases j <;> simp only [GBlock.strip, Block.table.injEq, reduceCtorEq] at hs
    simp only [GBlock.data, List.append_assoc] at hd
    obtain ⟨h1, h2⟩ := rows_eq _ _ _ _ hs.1 hd
    simp_all
  case blockQuote =>
    intro b u hb j r r' hs hd
    cases j <;> simp [GBlock.strip] at hs
    simp only [GBlock.data, List.append_assoc] at hd
    obtain ⟨h1, h2⟩ := hb _ _ _ hs hd
    simp_all
  case list | footnoteDefinition | githubAlert =>
    intro k b u hb j r r' hs hd
    cases j <;> simp [GBlock.strip] at hs
    simp only [GBlock.data, List.append_assoc] at hd
    obtain ⟨h1, h2⟩ := hb _ _ _ hs.2 hd
    simp_all
  all_goals
    intros
    rename_i j r r' hs hd
    cases j <;> simp_all [GBlock.strip, GBlock.data]

theorem GDocument.ext_strip_data {T : Type} (d e : GDocument T) (hs : d.strip = e.strip)
    (hd : d.data = e.data) : d = e := by
  obtain ⟨b, u⟩ := d
  obtain ⟨b', u'⟩ := e
  simp only [GDocument.strip, Document.mk.injEq] at hs
  simp only [GDocument.data] at hd
  obtain ⟨h1, h2⟩ := GBlock.eq_of_strip_data_aux.2.2.1 b b' [u] [u'] hs hd
  simp_all

/-! ## Data of `with_data` -/

/-- `Root d x l`: the list `l` is `dflt`s followed by the root's `x`. -/
theorem Inline.data_withData_aux {T : Type} (dflt : T) :
    (∀ (i : Inline) (x : T), ∃ n, (i.withData dflt x).data = List.replicate n dflt ++ [x]) ∧
    (∀ l : List Inline, ∃ n, GInline.dataL (Inline.withDataL dflt l) = List.replicate n dflt) := by
  apply Inline.ind
  case nil => exact ⟨0, rfl⟩
  case cons =>
    rintro i l hi ⟨m, hm⟩
    obtain ⟨n, hn⟩ := hi dflt
    refine ⟨n + 1 + m, ?_⟩
    rw [Inline.withDataL, GInline.dataL, hn, hm, ← List.replicate_append_replicate,
      List.replicate_succ']
  case linkReference =>
    rintro l t ⟨n, hn⟩ ⟨m, hm⟩ x
    exact ⟨n + m, by simp [Inline.withData, GInline.data, hn, hm, List.replicate_append_replicate]⟩
  case link => rintro d t c ⟨n, hn⟩ x; exact ⟨n, by simp [Inline.withData, GInline.data, hn]⟩
  case emphasis | strong | strikethrough =>
    rintro c ⟨n, hn⟩ x
    exact ⟨n, by simp [Inline.withData, GInline.data, hn]⟩
  all_goals
    intros
    exact ⟨0, by simp [Inline.withData, GInline.data]⟩

theorem cells_withData {T : Type} (dflt : T) (l : List (List Inline)) :
    ∃ n, ((l.map fun c => Inline.withDataL dflt c).map GInline.dataL).flatten
      = List.replicate n dflt := by
  induction l with
  | nil => exact ⟨0, rfl⟩
  | cons c l ih =>
    obtain ⟨m, hm⟩ := ih
    obtain ⟨n, hn⟩ := (Inline.data_withData_aux dflt).2 c
    refine ⟨n + m, ?_⟩
    simp only [List.map_cons, List.flatten_cons, hn, hm, List.replicate_append_replicate]

theorem rows_withData {T : Type} (dflt : T) (l : List (List (List Inline))) :
    ∃ n, (((l.map fun row => row.map fun c => Inline.withDataL dflt c).flatten).map
      GInline.dataL).flatten = List.replicate n dflt := by
  induction l with
  | nil => exact ⟨0, rfl⟩
  | cons c l ih =>
    obtain ⟨m, hm⟩ := ih
    obtain ⟨n, hn⟩ := cells_withData dflt c
    refine ⟨n + m, ?_⟩
    simp only [List.map_cons, List.flatten_cons, List.map_append, List.flatten_append, hn, hm,
      List.replicate_append_replicate]

theorem Block.data_withData_aux {T : Type} (dflt : T) :
    (∀ (i : Block) (x : T), ∃ n, (i.withData dflt x).data = List.replicate n dflt ++ [x]) ∧
    (∀ (i : ListItem) (x : T), ∃ n, (i.withData dflt x).data = List.replicate n dflt ++ [x]) ∧
    (∀ l : List Block, ∃ n, GBlock.dataL (Block.withDataL dflt l) = List.replicate n dflt) ∧
    (∀ l : List ListItem, ∃ n,
      GListItem.dataL (ListItem.withDataL dflt l) = List.replicate n dflt) := by
  apply Block.ind
  case nilB => exact ⟨0, rfl⟩
  case nilI => exact ⟨0, rfl⟩
  case consB =>
    rintro i l hi ⟨m, hm⟩
    obtain ⟨n, hn⟩ := hi dflt
    refine ⟨n + 1 + m, ?_⟩
    rw [Block.withDataL, GBlock.dataL, hn, hm, ← List.replicate_append_replicate,
      List.replicate_succ']
  case consI =>
    rintro i l hi ⟨m, hm⟩
    obtain ⟨n, hn⟩ := hi dflt
    refine ⟨n + 1 + m, ?_⟩
    rw [ListItem.withDataL, GListItem.dataL, hn, hm, ← List.replicate_append_replicate,
      List.replicate_succ']
  case item =>
    rintro t b ⟨n, hn⟩ x
    exact ⟨n, by simp [ListItem.withData, GListItem.data, hn]⟩
  case paragraph =>
    intro c x
    obtain ⟨n, hn⟩ := (Inline.data_withData_aux dflt).2 c
    exact ⟨n, by simp [Block.withData, GBlock.data, hn]⟩
  case heading =>
    intro k c x
    obtain ⟨n, hn⟩ := (Inline.data_withData_aux dflt).2 c
    exact ⟨n, by simp [Block.withData, GBlock.data, hn]⟩
  case definition =>
    intro c d t x
    obtain ⟨n, hn⟩ := (Inline.data_withData_aux dflt).2 c
    exact ⟨n, by simp [Block.withData, GBlock.data, hn]⟩
  case table =>
    intro r a x
    obtain ⟨n, hn⟩ := rows_withData dflt r
    exact ⟨n, by rw [Block.withData, GBlock.data, hn]⟩
  case blockQuote =>
    rintro c ⟨n, hn⟩ x
    exact ⟨n, by simp [Block.withData, GBlock.data, hn]⟩
  case list | footnoteDefinition | githubAlert =>
    rintro k c ⟨n, hn⟩ x
    exact ⟨n, by simp [Block.withData, GBlock.data, hn]⟩
  all_goals
    intros
    exact ⟨0, by simp [Block.withData, GBlock.data]⟩

/-! ## Simulation: a visit is the closure run over the data list -/

/-- `Sim f x ts R`: running `x` is running `f` over `ts`, and when it returns `a`, the list of
results of those calls is related to `a` by `R`. -/
def Sim {σ T U α : Type} (f : T → StateT σ Option U) (x : StateT σ Option α) (ts : List T)
    (R : α → List U → Prop) : Prop :=
  ∀ s, match x s with
    | none => mapMList f ts s = none
    | some (a, s') => ∃ us, mapMList f ts s = some (us, s') ∧ R a us

theorem Sim.pure {σ T U α : Type} {f : T → StateT σ Option U} {a : α} {R : α → List U → Prop}
    (h : R a []) : Sim f (Pure.pure a) [] R := by
  intro s
  exact ⟨[], rfl, h⟩

theorem mapMList_cons_run {σ α β : Type} (f : α → StateT σ Option β) (a : α) (l : List α) (s : σ) :
    mapMList f (a :: l) s =
      (f a s).bind fun p => (mapMList f l p.2).bind fun q => some (p.1 :: q.1, q.2) := rfl

theorem mapMList_append_run {σ α β : Type} (f : α → StateT σ Option β) (l m : List α) :
    ∀ s : σ, mapMList f (l ++ m) s =
      (mapMList f l s).bind fun p => (mapMList f m p.2).bind fun q => some (p.1 ++ q.1, q.2) := by
  induction l with
  | nil =>
    intro s
    show mapMList f m s = (mapMList f m s).bind fun q => some ([] ++ q.1, q.2)
    cases mapMList f m s <;> simp
  | cons a l ih =>
    intro s
    simp only [List.cons_append, mapMList_cons_run, ih]
    cases h : f a s with
    | none => simp
    | some p =>
      simp only [Option.bind_some]
      cases h2 : mapMList f l p.2 with
      | none => simp
      | some q =>
        simp only [Option.bind_some]
        cases h3 : mapMList f m q.2 <;> simp

theorem Sim.bind {σ T U α β : Type} {f : T → StateT σ Option U} {x : StateT σ Option α}
    {k : α → StateT σ Option β} {ts ts' : List T} {R : α → List U → Prop}
    {R' : β → List U → Prop} (hx : Sim f x ts R)
    (hk : ∀ a us, R a us → Sim f (k a) ts' (fun b vs => R' b (us ++ vs))) :
    Sim f (x >>= k) (ts ++ ts') R' := by
  intro s
  have h1 := hx s
  show match (x s).bind (fun p => k p.1 p.2) with
    | none => _
    | some (a, s') => _
  rw [mapMList_append_run]
  cases hxs : x s with
  | none => simp only [hxs] at h1; simp [h1]
  | some p =>
    obtain ⟨a, s'⟩ := p
    simp only [hxs] at h1
    obtain ⟨us, h2, h3⟩ := h1
    have h4 := hk a us h3 s'
    simp only [Option.bind_some, h2]
    cases hks : k a s' with
    | none => simp only [hks] at h4; simp [h4]
    | some q =>
      obtain ⟨b, s''⟩ := q
      simp only [hks] at h4
      obtain ⟨vs, h5, h6⟩ := h4
      exact ⟨us ++ vs, by simp [h5], h6⟩

theorem Sim.call {σ T U : Type} (f : T → StateT σ Option U) (t : T) :
    Sim f (f t) [t] (fun u us => us = [u]) := by
  intro s
  cases h : f t s with
  | none => simp [mapMList_cons_run, h]
  | some p => exact ⟨[p.1], by rw [mapMList_cons_run, h]; rfl, rfl⟩

theorem Sim.mono {σ T U α : Type} {f : T → StateT σ Option U} {x : StateT σ Option α}
    {ts : List T} {R R' : α → List U → Prop} (h : Sim f x ts R) (hr : ∀ a us, R a us → R' a us) :
    Sim f x ts R' := by
  intro s
  have h1 := h s
  cases hx : x s with
  | none => simpa [hx] using h1
  | some p =>
    simp only [hx] at h1
    obtain ⟨us, h2, h3⟩ := h1
    exact ⟨us, h2, hr _ _ h3⟩

/-- A node with no children. -/
theorem Sim.leaf {σ T U α : Type} {f : T → StateT σ Option U} {t : T} {g : U → α}
    {R : α → List U → Prop} (h : ∀ y, R (g y) [y]) :
    Sim f (do let y ← f t; Pure.pure (g y)) [t] R := by
  have := Sim.bind (R' := R) (ts' := []) (Sim.call f t) (k := fun y => Pure.pure (g y))
    (fun a us hu => Sim.pure (by subst hu; exact h a))
  simpa using this

/-- A node with one list of children. -/
theorem Sim.node {σ T U α β : Type} {f : T → StateT σ Option U} {x : StateT σ Option β} {t : T}
    {g : β → U → α} {ts : List T} {Q : β → List U → Prop} {R : α → List U → Prop}
    (hx : Sim f x ts Q) (h : ∀ b us y, Q b us → R (g b y) (us ++ [y])) :
    Sim f (do let b ← x; let y ← f t; Pure.pure (g b y)) (ts ++ [t]) R :=
  Sim.bind hx (fun b us hb => Sim.leaf (fun y => h b us y hb))

theorem Sim.list {σ T U α β : Type} {f : T → StateT σ Option U} {v : α → StateT σ Option β}
    {data : α → List T} {Q : α → β → List U → Prop}
    (h : ∀ a, Sim f (v a) (data a) (Q a)) {R : List α → List β → List U → Prop}
    (h0 : R [] [] []) (h1 : ∀ a l b m us vs, Q a b us → R l m vs → R (a :: l) (b :: m) (us ++ vs))
    (l : List α) : Sim f (mapMList v l) ((l.map data).flatten) (R l) := by
  induction l with
  | nil => exact Sim.pure h0
  | cons a l ih =>
    simp only [List.map_cons, List.flatten_cons]
    refine Sim.bind (h a) (fun b us hb => ?_)
    have := Sim.bind (ts' := []) (k := fun m => Pure.pure (b :: m)) ih
      (R' := fun m vs => R (a :: l) m (us ++ vs))
      (fun m vs hm => Sim.pure (by simpa using h1 a l b m us vs hb hm))
    simpa using this

theorem visitInlines_eq {σ T U : Type} (f : T → StateT σ Option U) (l : List (GInline T)) :
    visitInlines f l = mapMList (visitInline f) l := by
  induction l with
  | nil => rfl
  | cons i l ih => simp only [visitInlines, mapMList, ih]

theorem visitInline_sim {σ T U : Type} (f : T → StateT σ Option U) :
    (∀ i : GInline T, Sim f (visitInline f i) i.data
      (fun j us => j.data = us ∧ j.strip = i.strip)) ∧
    (∀ l : List (GInline T), Sim f (visitInlines f l) (GInline.dataL l)
      (fun m us => GInline.dataL m = us ∧ GInline.stripL m = GInline.stripL l)) := by
  apply GInline.ind
  case nil => exact Sim.pure ⟨rfl, rfl⟩
  case cons =>
    intro i l hi hl
    simp only [visitInlines, GInline.dataL]
    refine Sim.bind hi (fun j us hj => ?_)
    have := Sim.bind (ts' := []) (k := fun m => Pure.pure (j :: m)) hl
      (R' := fun m vs => GInline.dataL m = us ++ vs ∧
        GInline.stripL m = GInline.stripL (i :: l))
      (fun m vs hm => Sim.pure (by simp [GInline.dataL, GInline.stripL, hj, hm]))
    simpa using this
  case linkReference =>
    intro l t x hl ht
    simp only [visitInline, GInline.data, List.append_assoc]
    refine Sim.bind hl (fun l' us hl' => ?_)
    refine Sim.node ht (fun t' vs y ht' => ?_)
    simp [GInline.data, GInline.strip, hl', ht']
  case link =>
    intro d t c x hc
    exact Sim.node hc (fun c' us y h => by simp [GInline.data, GInline.strip, h])
  case emphasis | strong | strikethrough =>
    intro c x hc
    exact Sim.node hc (fun c' us y h => by simp [GInline.data, GInline.strip, h])
  all_goals
    intros
    exact Sim.leaf (fun y => by simp [GInline.data, GInline.strip])

theorem visitRows_sim {σ T U : Type} (f : T → StateT σ Option U)
    (r : List (List (List (GInline T)))) :
    Sim f (mapMList (mapMList (visitInlines f)) r) ((r.flatten.map GInline.dataL).flatten)
      (fun r' us => (r'.flatten.map GInline.dataL).flatten = us ∧
        r'.map (fun row => row.map fun c => GInline.stripL c) =
          r.map (fun row => row.map fun c => GInline.stripL c)) := by
  have hrow : ∀ row : List (List (GInline T)), Sim f (mapMList (visitInlines f) row)
      ((row.map GInline.dataL).flatten)
      (fun row' us => (row'.map GInline.dataL).flatten = us ∧
        row'.map (fun c => GInline.stripL c) = row.map (fun c => GInline.stripL c)) := by
    intro row
    refine Sim.list (visitInline_sim f).2 (R := fun l m us => (m.map GInline.dataL).flatten = us ∧
        m.map (fun c => GInline.stripL c) = l.map (fun c => GInline.stripL c)) ⟨rfl, rfl⟩ ?_ row
    intro a l b m us vs h1 h2
    simp [h1, h2]
  have := Sim.list hrow (R := fun r r' us => (r'.flatten.map GInline.dataL).flatten = us ∧
        r'.map (fun row => row.map fun c => GInline.stripL c) =
          r.map (fun row => row.map fun c => GInline.stripL c)) ⟨rfl, rfl⟩
    (by
      intro a l b m us vs h1 h2
      refine ⟨?_, ?_⟩
      · rw [List.flatten_cons, List.map_append, List.flatten_append, h1.1, h2.1]
      · rw [List.map_cons, List.map_cons, h1.2, h2.2]) r
  have e : ∀ r : List (List (List (GInline T))),
      (r.map fun row => (row.map GInline.dataL).flatten).flatten
        = (r.flatten.map GInline.dataL).flatten := by
    intro r
    induction r with
    | nil => rfl
    | cons a r ih => simp [ih]
  rw [e] at this
  exact this

theorem visitBlock_sim {σ T U : Type} (f : T → StateT σ Option U) :
    (∀ i : GBlock T, Sim f (visitBlock f i) i.data
      (fun j us => j.data = us ∧ j.strip = i.strip)) ∧
    (∀ i : GListItem T, Sim f (visitItem f i) i.data
      (fun j us => j.data = us ∧ j.strip = i.strip)) ∧
    (∀ l : List (GBlock T), Sim f (visitBlocks f l) (GBlock.dataL l)
      (fun m us => GBlock.dataL m = us ∧ GBlock.stripL m = GBlock.stripL l)) ∧
    (∀ l : List (GListItem T), Sim f (visitItems f l) (GListItem.dataL l)
      (fun m us => GListItem.dataL m = us ∧ GListItem.stripL m = GListItem.stripL l)) := by
  apply GBlock.ind
  case nilB => exact Sim.pure ⟨rfl, rfl⟩
  case nilI => exact Sim.pure ⟨rfl, rfl⟩
  case consB =>
    intro i l hi hl
    simp only [visitBlocks, GBlock.dataL]
    refine Sim.bind hi (fun j us hj => ?_)
    have := Sim.bind (ts' := []) (k := fun m => Pure.pure (j :: m)) hl
      (R' := fun m vs => GBlock.dataL m = us ++ vs ∧
        GBlock.stripL m = GBlock.stripL (i :: l))
      (fun m vs hm => Sim.pure (by simp [GBlock.dataL, GBlock.stripL, hj, hm]))
    simpa using this
  case consI =>
    intro i l hi hl
    simp only [visitItems, GListItem.dataL]
    refine Sim.bind hi (fun j us hj => ?_)
    have := Sim.bind (ts' := []) (k := fun m => Pure.pure (j :: m)) hl
      (R' := fun m vs => GListItem.dataL m = us ++ vs ∧
        GListItem.stripL m = GListItem.stripL (i :: l))
      (fun m vs hm => Sim.pure (by simp [GListItem.dataL, GListItem.stripL, hj, hm]))
    simpa using this
  case item =>
    intro t b x hb
    exact Sim.node hb (fun c' us y h => by simp [GListItem.data, GListItem.strip, h])
  case paragraph =>
    intro c x
    exact Sim.node ((visitInline_sim f).2 c)
      (fun c' us y h => by simp [GBlock.data, GBlock.strip, h])
  case heading =>
    intro k c x
    exact Sim.node ((visitInline_sim f).2 c)
      (fun c' us y h => by simp [GBlock.data, GBlock.strip, h])
  case definition =>
    intro c d t x
    exact Sim.node ((visitInline_sim f).2 c)
      (fun c' us y h => by simp [GBlock.data, GBlock.strip, h])
  case table =>
    intro r a x
    exact Sim.node (visitRows_sim f r)
      (fun c' us y h => by
        simp only [GBlock.data, GBlock.strip, h.1, h.2, and_self])
  case blockQuote =>
    intro b x hb
    exact Sim.node hb (fun c' us y h => by simp [GBlock.data, GBlock.strip, h])
  case list | footnoteDefinition | githubAlert =>
    intro k b x hb
    exact Sim.node hb (fun c' us y h => by simp [GBlock.data, GBlock.strip, h])
  all_goals
    intros
    exact Sim.leaf (fun y => by simp [GBlock.data, GBlock.strip])

theorem mapUserData_sim {σ T U : Type} (f : T → StateT σ Option U) (d : GDocument T) :
    Sim f (mapUserData f d) d.data (fun e us => e.data = us ∧ e.strip = d.strip) :=
  Sim.node ((visitBlock_sim f).2.2.1 d.blocks)
    (fun c' us y h => by simp [GDocument.data, GDocument.strip, h])

end Verif
