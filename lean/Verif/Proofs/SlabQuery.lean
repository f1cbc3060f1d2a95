import Verif.Proofs.SlabRemove
/-
The reading operations of a slab (`find_min`, `find_max`, iteration, `get_depth`, `find_by_key`,
`traverse`) and in-place updates of a leaf.
-/
namespace AOB
variable {C : Type}

/-! ### `find_min`, `find_max` -/

theorem findMinWalk_spec (s : Slab C) (t : Tree C) : ∀ fuel,
    t.Mem s.leafNodes s.innerNodes s.callbackInfos → t.depth < fuel →
    ∃ e, t.ents.head? = some e ∧ s.findMinMaxWalk false fuel t.handle = .ok e.slot := by
  induction t with
  | leaf e =>
    intro fuel hm hf
    cases fuel with
    | zero => simp at hf
    | succ fuel =>
      refine ⟨e, rfl, ?_⟩
      unfold Slab.findMinMaxWalk
      rw [hm.handle_leaf]; rfl
  | node i k p l r ihl ihr =>
    intro fuel hm hf
    cases fuel with
    | zero => simp at hf
    | succ fuel =>
      obtain ⟨h1, h2, h3, h4⟩ := hm
      simp only [Tree.depth] at hf
      obtain ⟨e, he, hw⟩ := ihl fuel h3 (by omega)
      refine ⟨e, ?_, ?_⟩
      · simp [Tree.ents, List.head?_append, he]
      · unfold Slab.findMinMaxWalk
        rw [show (Tree.node i k p l r).handle = notU32 i from rfl, isInner_not h1]
        simp only [if_true]
        rw [notU32_notU32 (by omega), idx_eq h2, ok_bind]
        exact hw

theorem findMaxWalk_spec (s : Slab C) (t : Tree C) : ∀ fuel,
    t.Mem s.leafNodes s.innerNodes s.callbackInfos → t.depth < fuel →
    ∃ e, t.ents.getLast? = some e ∧ s.findMinMaxWalk true fuel t.handle = .ok e.slot := by
  induction t with
  | leaf e =>
    intro fuel hm hf
    cases fuel with
    | zero => simp at hf
    | succ fuel =>
      refine ⟨e, rfl, ?_⟩
      unfold Slab.findMinMaxWalk
      rw [hm.handle_leaf]; rfl
  | node i k p l r ihl ihr =>
    intro fuel hm hf
    cases fuel with
    | zero => simp at hf
    | succ fuel =>
      obtain ⟨h1, h2, h3, h4⟩ := hm
      simp only [Tree.depth] at hf
      obtain ⟨e, he, hw⟩ := ihr fuel h4 (by omega)
      refine ⟨e, ?_, ?_⟩
      · simp [Tree.ents, List.getLast?_append, he]
      · unfold Slab.findMinMaxWalk
        rw [show (Tree.node i k p l r).handle = notU32 i from rfl, isInner_not h1]
        simp only [if_true]
        rw [notU32_notU32 (by omega), idx_eq h2, ok_bind]
        exact hw

theorem RepT.findMin {s : Slab C} {ot : Option (Tree C)} (hr : RepT s ot) :
    s.findMin = .ok ((oents ot).head?.map Entry.slot) := by
  unfold Slab.findMin Slab.findMinMax
  cases ot with
  | none => rw [if_pos (hr.count_zero.2 rfl)]; rfl
  | some t =>
    have h0 : s.header.leafCount ≠ 0 := by rw [Ne, hr.count_zero]; simp
    have h1 := hr.inners_le
    have h2 := t.depth_le_inners
    obtain ⟨e, he, hw⟩ := findMinWalk_spec s t (s.innerNodes.length + 1) hr.mem (by omega)
    rw [if_neg h0, hr.root_eq, hw, ok_bind]
    simp [oents, he]

theorem RepT.findMax {s : Slab C} {ot : Option (Tree C)} (hr : RepT s ot) :
    s.findMax = .ok ((oents ot).getLast?.map Entry.slot) := by
  unfold Slab.findMax Slab.findMinMax
  cases ot with
  | none => rw [if_pos (hr.count_zero.2 rfl)]; rfl
  | some t =>
    have h0 : s.header.leafCount ≠ 0 := by rw [Ne, hr.count_zero]; simp
    have h1 := hr.inners_le
    have h2 := t.depth_le_inners
    obtain ⟨e, he, hw⟩ := findMaxWalk_spec s t (s.innerNodes.length + 1) hr.mem (by omega)
    rw [if_neg h0, hr.root_eq, hw, ok_bind]
    simp [oents, he]

/-! ### Iteration -/

/-- The leaf node of an entry. -/
def Entry.node (e : Entry C) : LeafNode := ⟨e.key, e.qty⟩

/-- Entries of a tree in iteration order. -/
def Tree.ordered (asc : Bool) (t : Tree C) : List (Entry C) := if asc then t.ents else t.ents.reverse

theorem iterNext_nil (s : Slab C) (asc : Bool) (fuel : Nat) :
    s.iterNext asc fuel [] = .ok (none, []) := by
  cases fuel <;> rfl

theorem iterNext_spec (s : Slab C) (asc : Bool) (N : Nat) (t : Tree C) :
    ∀ (fuel : Nat) (ts : List (Tree C)),
    (∀ u ∈ t :: ts, u.Mem s.leafNodes s.innerNodes s.callbackInfos ∧ u.depth ≤ N) →
    t.depth < fuel →
    ∃ (e : Entry C) (ts' : List (Tree C)), (∀ u ∈ ts', u.Mem s.leafNodes s.innerNodes s.callbackInfos ∧ u.depth ≤ N) ∧
      (t :: ts).flatMap (Tree.ordered asc) = e :: ts'.flatMap (Tree.ordered asc) ∧
      s.iterNext asc fuel ((t :: ts).map Tree.handle) = .ok (some e.node, ts'.map Tree.handle) := by
  induction t with
  | leaf e =>
    intro fuel ts hm hf
    cases fuel with
    | zero => simp at hf
    | succ fuel =>
      have hme := (hm _ (List.mem_cons_self)).1
      refine ⟨e, ts, fun u hu => hm u (List.mem_cons_of_mem _ hu), ?_, ?_⟩
      · simp [Tree.ordered, Tree.ents]
      · simp only [List.map_cons]
        unfold Slab.iterNext
        rw [hme.handle_leaf]
        simp only [Bool.false_eq_true, if_false]
        rw [show (Tree.leaf e).handle = e.slot from rfl, idx_eq hme.2.1]
        rfl
  | node i k p l r ihl ihr =>
    intro fuel ts hm hf
    cases fuel with
    | zero => simp at hf
    | succ fuel =>
      obtain ⟨⟨h1, h2, h3, h4⟩, h5⟩ := hm _ (List.mem_cons_self)
      simp only [Tree.depth] at hf h5
      have hstep : ∀ stack : List Nat, s.iterNext asc (fuel + 1) (notU32 i :: stack) =
          s.iterNext asc fuel ((if asc then l else r).handle :: (if asc then r else l).handle :: stack) := by
        intro stack
        conv_lhs => unfold Slab.iterNext
        rw [isInner_not h1]
        simp only [if_true]
        rw [notU32_notU32 (by omega), idx_eq h2, ok_bind]
        cases asc <;> simp [InnerNode.child]
      simp only [List.map_cons]
      rw [show (Tree.node i k p l r).handle = notU32 i from rfl, hstep]
      cases asc
      · obtain ⟨e, ts', ha, hb, hc⟩ := ihr fuel (l :: ts) (by
          intro u hu
          simp only [List.mem_cons] at hu
          rcases hu with rfl | rfl | hu
          · exact ⟨h4, by omega⟩
          · exact ⟨h3, by omega⟩
          · exact hm u (List.mem_cons_of_mem _ hu)) (by omega)
        refine ⟨e, ts', ha, ?_, hc⟩
        rw [← hb]
        simp [Tree.ordered, Tree.ents]
      · obtain ⟨e, ts', ha, hb, hc⟩ := ihl fuel (r :: ts) (by
          intro u hu
          simp only [List.mem_cons] at hu
          rcases hu with rfl | rfl | hu
          · exact ⟨h3, by omega⟩
          · exact ⟨h4, by omega⟩
          · exact hm u (List.mem_cons_of_mem _ hu)) (by omega)
        refine ⟨e, ts', ha, ?_, hc⟩
        rw [← hb]
        simp [Tree.ordered, Tree.ents]

theorem iterCollect_spec (s : Slab C) (asc : Bool) : ∀ (fuel : Nat) (ts : List (Tree C)),
    (∀ u ∈ ts, u.Mem s.leafNodes s.innerNodes s.callbackInfos ∧ u.depth ≤ s.innerNodes.length) →
    (ts.flatMap (Tree.ordered asc)).length < fuel →
    s.iterCollect asc fuel (ts.map Tree.handle) =
      .ok ((ts.flatMap (Tree.ordered asc)).map Entry.node) := by
  intro fuel
  induction fuel with
  | zero => intro ts _ h; simp at h
  | succ fuel ih =>
    intro ts hm hf
    unfold Slab.iterCollect
    cases ts with
    | nil =>
      simp only [List.map_nil]
      rw [iterNext_nil, ok_bind]; rfl
    | cons t ts =>
      obtain ⟨e, ts', ha, hb, hc⟩ := iterNext_spec s asc s.innerNodes.length t
        (s.innerNodes.length + 1) ts hm (by have := (hm t (by simp)).2; omega)
      rw [hc, ok_bind]
      simp only
      rw [hb] at hf ⊢
      simp only [List.length_cons] at hf
      rw [ih ts' ha (by omega), ok_bind]
      rfl

theorem RepT.iterAll {s : Slab C} {ot : Option (Tree C)} (hr : RepT s ot) (asc : Bool) :
    s.iterAll asc = .ok ((if asc then oents ot else (oents ot).reverse).map Entry.node) := by
  unfold Slab.iterAll
  cases ot with
  | none =>
    rw [if_pos (hr.count_zero.2 rfl)]
    have := iterCollect_spec s asc (s.leafNodes.length + 1) [] (by simp) (by simp)
    simp only [List.map_nil] at this
    rw [this]
    cases asc <;> simp [oents]
  | some t =>
    have h0 : s.header.leafCount ≠ 0 := by rw [Ne, hr.count_zero]; simp
    have h1 := hr.inners_le
    have h2 := t.depth_le_inners
    have h3 := hr.ents_le
    have := iterCollect_spec s asc (s.leafNodes.length + 1) [t]
      (by
        intro u hu
        simp only [List.mem_singleton] at hu
        subst hu
        exact ⟨hr.mem, by omega⟩)
      (by
        simp only [oents] at h3
        cases asc <;> simp [Tree.ordered] <;> omega)
    rw [if_neg h0, hr.root_eq]
    simp only [List.map_cons, List.map_nil] at this
    rw [this]
    cases asc <;> simp [oents, Tree.ordered]

/-! ### `get_depth` -/

theorem getDepthLoop_spec (s : Slab C) : ∀ (fuel : Nat) (ts : List (Tree C × Nat)) (m : Nat),
    (∀ u ∈ ts, u.1.Mem s.leafNodes s.innerNodes s.callbackInfos) →
    ((ts.map (fun u => u.1.ents.length + u.1.inners.length)).sum ≤ fuel) →
    s.getDepthLoop fuel (ts.map (fun u => (u.1.handle, u.2))) m =
      .ok (ts.foldl (fun m u => max m (u.2 + u.1.depth)) m) := by
  intro fuel
  induction fuel with
  | zero =>
    intro ts m hm hs
    cases ts with
    | nil => rfl
    | cons u ts =>
      exfalso
      simp at hs
      have := u.1.ents_ne_nil
      exact this hs.1.1
  | succ fuel ih =>
    intro ts m hm hs
    cases ts with
    | nil => rfl
    | cons u ts =>
      obtain ⟨t, d⟩ := u
      have hmt := hm (t, d) (by simp)
      have hmts : ∀ u ∈ ts, u.1.Mem s.leafNodes s.innerNodes s.callbackInfos :=
        fun u hu => hm u (List.mem_cons_of_mem _ hu)
      simp only [List.map_cons, List.sum_cons] at hs
      simp only [List.map_cons]
      cases t with
      | leaf e =>
        unfold Slab.getDepthLoop
        rw [hmt.handle_leaf]
        simp only [Bool.false_eq_true, if_false]
        rw [ih ts _ hmts (by simp [Tree.ents, Tree.inners] at hs; omega)]
        simp [Tree.depth, max_comm]
      | node i k p l r =>
        obtain ⟨h1, h2, h3, h4⟩ := hmt
        unfold Slab.getDepthLoop
        rw [show (Tree.node i k p l r).handle = notU32 i from rfl, isInner_not h1]
        simp only [if_true]
        rw [notU32_notU32 (by omega), idx_eq h2, ok_bind]
        have := ih ((r, d + 1) :: (l, d + 1) :: ts) m (by
          intro u hu
          simp only [List.mem_cons] at hu
          rcases hu with rfl | rfl | hu
          · exact h4
          · exact h3
          · exact hmts u hu) (by
          simp [Tree.ents, Tree.inners] at hs ⊢
          omega)
        simp only [List.map_cons] at this
        rw [this]
        simp only [List.foldl_cons, Tree.depth]
        congr 2
        omega

theorem RepT.getDepth {s : Slab C} {ot : Option (Tree C)} (hr : RepT s ot) :
    s.getDepth = .ok (match ot with | none => 0 | some t => t.depth + 1) := by
  unfold Slab.getDepth
  cases ot with
  | none => rw [if_pos (hr.count_zero.2 rfl)]
  | some t =>
    have h0 : s.header.leafCount ≠ 0 := by rw [Ne, hr.count_zero]; simp
    have h1 := hr.inners_le
    have h3 := hr.ents_le
    have := getDepthLoop_spec s (s.leafNodes.length + s.innerNodes.length + 1) [(t, 1)] 0
      (by
        intro u hu
        simp only [List.mem_singleton] at hu
        subst hu
        exact hr.mem)
      (by simp only [oents] at h3; simp; omega)
    rw [if_neg h0, hr.root_eq]
    simp only [List.map_cons, List.map_nil] at this
    rw [this]
    simp; omega

/-- A crit-bit tree over keys that agree on `q` bits has at most `128 - q` inner nodes on a path. -/
theorem Tree.Wf.depth_le {t : Tree C} : t.Wf → ∀ q ≤ 128,
    (∀ a ∈ t.ents, ∀ b ∈ t.ents, Agree q a.key b.key) → t.depth + q ≤ 128 := by
  induction t with
  | leaf e => intro _ q hq _; simpa [Tree.depth] using hq
  | node i k p l r ihl ihr =>
    intro hw q hq hag
    obtain ⟨hp, _, hl, hr, hwl, hwr⟩ := hw
    have hqp : q ≤ p := by
      by_contra hlt
      obtain ⟨a, ha⟩ := List.exists_mem_of_ne_nil _ l.ents_ne_nil
      obtain ⟨b, hb⟩ := List.exists_mem_of_ne_nil _ r.ents_ne_nil
      have := hag a (by simp [Tree.ents, ha]) b (by simp [Tree.ents, hb]) (127 - p) (by omega)
      rw [(hl a ha).2, (hr b hb).2] at this
      cases this
    have h1 := ihl hwl (p + 1) (by omega) (by
      intro a ha b hb j hj
      by_cases hj' : j = 127 - p
      · subst hj'; rw [(hl a ha).2, (hl b hb).2]
      · exact ((hl a ha).1.trans (hl b hb).1.symm) j (by omega))
    have h2 := ihr hwr (p + 1) (by omega) (by
      intro a ha b hb j hj
      by_cases hj' : j = 127 - p
      · subst hj'; rw [(hr a ha).2, (hr b hb).2]
      · exact ((hr a ha).1.trans (hr b hb).1.symm) j (by omega))
    simp only [Tree.depth]
    omega

theorem Tree.Wf.depth_le_128 {t : Tree C} (h : t.Wf) : t.depth ≤ 128 := by
  have := h.depth_le 0 (by omega) (by
    intro a ha b hb j hj
    rw [Nat.testBit_lt_two_pow, Nat.testBit_lt_two_pow]
    · exact lt_of_lt_of_le (h.key_lt b hb) (Nat.pow_le_pow_right (by norm_num) hj)
    · exact lt_of_lt_of_le (h.key_lt a ha) (Nat.pow_le_pow_right (by norm_num) hj))
  omega

/-! ### `find_by_key` -/

theorem findByKeyWalk_spec (s : Slab C) (k : Nat) (hk : k < 2 ^ 128) (t : Tree C) : ∀ fuel,
    t.Mem s.leafNodes s.innerNodes s.callbackInfos → t.Wf → t.depth < fuel →
    (∃ e ∈ t.ents, e.key = k ∧ s.findByKeyWalk k fuel t.handle = .ok (some e.slot)) ∨
    ((∀ e ∈ t.ents, e.key ≠ k) ∧ s.findByKeyWalk k fuel t.handle = .ok none) := by
  induction t with
  | leaf e =>
    intro fuel hm hw hf
    cases fuel with
    | zero => simp at hf
    | succ fuel =>
      unfold Slab.findByKeyWalk
      rw [hm.handle_leaf]
      simp only [Bool.false_eq_true, if_false]
      rw [show (Tree.leaf e).handle = e.slot from rfl, idx_eq hm.2.1, ok_bind]
      by_cases hek : e.key = k
      · left
        exact ⟨e, by simp [Tree.ents], hek, by simp [hek]⟩
      · right
        refine ⟨by intro e' he'; simp only [Tree.ents, List.mem_singleton] at he'; subst he'; exact hek, ?_⟩
        simp only
        rw [if_neg (fun h => hek h.symm)]
  | node i nk p l r ihl ihr =>
    intro fuel hm hw hf
    cases fuel with
    | zero => simp at hf
    | succ fuel =>
      obtain ⟨h1, h2, h3, h4⟩ := hm
      obtain ⟨hp, hnk, hl, hr, hwl, hwr⟩ := hw
      simp only [Tree.depth] at hf
      unfold Slab.findByKeyWalk
      rw [show (Tree.node i nk p l r).handle = notU32 i from rfl, isInner_not h1]
      simp only [if_true]
      rw [notU32_notU32 (by omega), idx_eq h2, ok_bind]
      have hpmod : p % U32 = p := Nat.mod_eq_of_lt (by unfold U32; omega)
      simp only
      rw [hpmod]
      by_cases hlt : leadingZeros (k ^^^ nk) < p
      · right
        rw [if_pos hlt]
        refine ⟨?_, rfl⟩
        intro e he hek
        have : Agree p e.key nk := by
          simp only [Tree.ents, List.mem_append] at he
          rcases he with he | he
          · exact (hl e he).1
          · exact (hr e he).1
        rw [hek] at this
        have := (lz_ge_iff hk hnk hp.le).2 this
        omega
      · rw [if_neg hlt, walkDown_ok hp, ok_bind]
        simp only
        cases hb : k.testBit (127 - p)
        · rcases ihl fuel h3 hwl (by omega) with ⟨e, he, hek, hres⟩ | ⟨hno, hres⟩
          · left; exact ⟨e, by simp [Tree.ents, he], hek, by simpa [InnerNode.child] using hres⟩
          · right
            refine ⟨?_, by simpa [InnerNode.child] using hres⟩
            intro e he
            simp only [Tree.ents, List.mem_append] at he
            rcases he with he | he
            · exact hno e he
            · rintro rfl
              rw [(hr e he).2] at hb; cases hb
        · rcases ihr fuel h4 hwr (by omega) with ⟨e, he, hek, hres⟩ | ⟨hno, hres⟩
          · left; exact ⟨e, by simp [Tree.ents, he], hek, by simpa [InnerNode.child] using hres⟩
          · right
            refine ⟨?_, by simpa [InnerNode.child] using hres⟩
            intro e he
            simp only [Tree.ents, List.mem_append] at he
            rcases he with he | he
            · rintro rfl
              rw [(hl e he).2] at hb; cases hb
            · exact hno e he

theorem RepT.findByKey {s : Slab C} {ot : Option (Tree C)} (hr : RepT s ot) {k : Nat}
    (hk : k < 2 ^ 128) :
    (∃ e ∈ oents ot, e.key = k ∧ s.findByKey k = .ok (some e.slot)) ∨
    ((∀ e ∈ oents ot, e.key ≠ k) ∧ s.findByKey k = .ok none) := by
  unfold Slab.findByKey Slab.root
  cases ot with
  | none =>
    right
    rw [if_pos (hr.count_zero.2 rfl)]
    exact ⟨by simp [oents], rfl⟩
  | some t =>
    have h0 : s.header.leafCount ≠ 0 := by rw [Ne, hr.count_zero]; simp
    have h1 := hr.inners_le
    have h2 := t.depth_le_inners
    rw [if_neg h0, hr.root_eq]
    simpa only [oents] using
      findByKeyWalk_spec s k hk t (s.innerNodes.length + 1) hr.mem hr.wf (by omega)

/-! ### `traverse` -/

theorem walkRec_spec (s : Slab C) (t : Tree C) : ∀ fuel,
    t.Mem s.leafNodes s.innerNodes s.callbackInfos → t.depth < fuel →
    s.walkRec fuel t.handle = .ok (t.ents.map (fun e => (e.node, e.cb))) := by
  induction t with
  | leaf e =>
    intro fuel hm hf
    cases fuel with
    | zero => simp at hf
    | succ fuel =>
      unfold Slab.walkRec
      rw [hm.handle_leaf]
      simp only [Bool.false_eq_true, if_false, Slab.getCallbackInfo]
      rw [show (Tree.leaf e).handle = e.slot from rfl, idx_eq hm.2.1, idx_eq hm.2.2]
      rfl
  | node i k p l r ihl ihr =>
    intro fuel hm hf
    cases fuel with
    | zero => simp at hf
    | succ fuel =>
      obtain ⟨h1, h2, h3, h4⟩ := hm
      simp only [Tree.depth] at hf
      unfold Slab.walkRec
      rw [show (Tree.node i k p l r).handle = notU32 i from rfl, isInner_not h1]
      simp only [if_true]
      rw [notU32_notU32 (by omega), idx_eq h2, ok_bind]
      simp only
      rw [ihl fuel h3 (by omega), ok_bind, ihr fuel h4 (by omega), ok_bind]
      simp [Tree.ents]

theorem RepT.traverse {s : Slab C} {ot : Option (Tree C)} (hr : RepT s ot) :
    s.traverse = .ok ((oents ot).map (fun e => (e.node, e.cb))) := by
  unfold Slab.traverse Slab.root
  cases ot with
  | none =>
    have h0 := hr.count_zero.2 rfl
    rw [if_pos h0]
    simp [oents, h0]
  | some t =>
    have h0 : s.header.leafCount ≠ 0 := by rw [Ne, hr.count_zero]; simp
    have h1 := hr.inners_le
    have h2 := t.depth_le_inners
    rw [if_neg h0, hr.root_eq]
    simp only
    rw [walkRec_spec s t (s.innerNodes.length + 1) hr.mem (by omega), ok_bind,
      if_pos (by rw [hr.count]; simp [oents])]
    rfl

/-! ### In-place updates -/

/-- Apply a function to every entry of a tree. -/
def Tree.mapEnt (g : Entry C → Entry C) : Tree C → Tree C
  | .leaf e => .leaf (g e)
  | .node i k p l r => .node i k p (l.mapEnt g) (r.mapEnt g)

theorem Tree.mapEnt_ents (g : Entry C → Entry C) (t : Tree C) :
    (t.mapEnt g).ents = t.ents.map g := by
  induction t with
  | leaf e => rfl
  | node i k p l r ihl ihr => simp [Tree.mapEnt, Tree.ents, ihl, ihr]

theorem Tree.mapEnt_inners (g : Entry C → Entry C) (t : Tree C) :
    (t.mapEnt g).inners = t.inners := by
  induction t with
  | leaf e => rfl
  | node i k p l r ihl ihr => simp [Tree.mapEnt, Tree.inners, ihl, ihr]

theorem Tree.mapEnt_handle {g : Entry C → Entry C} (hs : ∀ e, (g e).slot = e.slot) (t : Tree C) :
    (t.mapEnt g).handle = t.handle := by
  cases t with
  | leaf e => exact hs e
  | node i k p l r => rfl

theorem Tree.mapEnt_wf {g : Entry C → Entry C} (hk : ∀ e, (g e).key = e.key) {t : Tree C}
    (h : t.Wf) : (t.mapEnt g).Wf := by
  induction t with
  | leaf e => simpa [Tree.mapEnt, Tree.Wf, hk] using h
  | node i k p l r ihl ihr =>
    obtain ⟨h1, h2, h3, h4, h5, h6⟩ := h
    refine ⟨h1, h2, ?_, ?_, ihl h5, ihr h6⟩
    · intro e he
      rw [Tree.mapEnt_ents, List.mem_map] at he
      obtain ⟨x, hx, rfl⟩ := he
      rw [hk]; exact h3 x hx
    · intro e he
      rw [Tree.mapEnt_ents, List.mem_map] at he
      obtain ⟨x, hx, rfl⟩ := he
      rw [hk]; exact h4 x hx

theorem Tree.mapEnt_mem {g : Entry C → Entry C} (hs : ∀ e, (g e).slot = e.slot)
    {ls ls' is} {cs cs' : List C} {t : Tree C} (h : t.Mem ls is cs)
    (hl : ∀ e ∈ t.ents, ls'[e.slot]? = some ⟨(g e).key, (g e).qty⟩ ∧ cs'[e.slot]? = some (g e).cb) :
    (t.mapEnt g).Mem ls' is cs' := by
  induction t with
  | leaf e =>
    have := hl e (by simp [Tree.ents])
    refine ⟨by rw [hs]; exact h.1, ?_, ?_⟩
    · rw [hs]; exact this.1
    · rw [hs]; exact this.2
  | node i k p l r ihl ihr =>
    obtain ⟨h1, h2, h3, h4⟩ := h
    refine ⟨h1, ?_, ihl h3 ?_, ihr h4 ?_⟩
    · rw [Tree.mapEnt_handle hs, Tree.mapEnt_handle hs]; exact h2
    · intro e he; exact hl e (by simp [Tree.ents, he])
    · intro e he; exact hl e (by simp [Tree.ents, he])

theorem oents_map (g : Entry C → Entry C) (ot : Option (Tree C)) :
    oents (ot.map (Tree.mapEnt g)) = (oents ot).map g := by
  cases ot with
  | none => rfl
  | some t => simp [oents, Tree.mapEnt_ents]

/-- Updating quantities and callback infos of used slots in place. -/
theorem RepT.update {s : Slab C} {ot : Option (Tree C)} (hr : RepT s ot) {g : Entry C → Entry C}
    (hs : ∀ e, (g e).slot = e.slot) (hk : ∀ e, (g e).key = e.key) {ls' : List LeafNode} {cs' : List C}
    (hll : ls'.length = s.leafNodes.length) (hcl : cs'.length = s.callbackInfos.length)
    (hout : ∀ i, i ∉ (oents ot).map Entry.slot → ls'[i]? = s.leafNodes[i]?)
    (hin : ∀ e ∈ oents ot, ls'[e.slot]? = some ⟨(g e).key, (g e).qty⟩ ∧ cs'[e.slot]? = some (g e).cb) :
    RepT { s with leafNodes := ls', callbackInfos := cs' } (ot.map (Tree.mapEnt g)) := by
  have hslots : (oents (ot.map (Tree.mapEnt g))).map Entry.slot = (oents ot).map Entry.slot := by
    rw [oents_map, List.map_map]
    congr 1
    funext e; exact hs e
  constructor
  · intro t ht
    cases ot with
    | none => cases ht
    | some t0 =>
      cases ht
      refine ⟨?_, ?_, ?_⟩
      · rw [Tree.mapEnt_handle hs]; exact hr.root_eq
      · exact Tree.mapEnt_mem hs hr.mem hin
      · exact Tree.mapEnt_wf hk hr.wf
  · rw [oents_map]; simpa using hr.count
  · rw [hslots]
    exact hr.leafAlloc.congr hll hout
  · have : oinners (ot.map (Tree.mapEnt g)) = oinners ot := by
      cases ot with
      | none => rfl
      | some t => simp [oinners, Tree.mapEnt_inners]
    rw [this]
    exact hr.innerAlloc
  · simp only [hll]; exact hr.lens
  · simp only [hll, hcl]; exact hr.cbs
  · simp only [hll]; exact hr.cap

end AOB
