import Verif.Model.Check
import Verif.Proofs.SlabApi
import Verif.Proofs.ResLemmas
import Verif.Spec.Range
/-
`check_invariants` against the ghost tree: it passes on a slab with a well-formed tree, and a slab on which it passes
has one.
-/
namespace AOB
variable {C : Type}

theorem assertThat_ok {b : Bool} {u : Unit} : assertThat b = .ok u ↔ b = true := by
  unfold assertThat
  cases b <;> simp

theorem testBit_prefixMask {p : Nat} (hp : p < 128) (i : Nat) :
    (((2 ^ 128 - (1 <<< (127 - p))) <<< 1) % 2 ^ 128).testBit i = decide (128 - p ≤ i ∧ i < 128) := by
  have e : 2 ^ 128 - (1 <<< (127 - p)) = 2 ^ 128 - ((2 ^ (127 - p) - 1) + 1) := by
    have := Nat.one_le_two_pow (n := 127 - p)
    rw [Nat.shiftLeft_eq, one_mul]; omega
  rw [Nat.testBit_mod_two_pow, Nat.testBit_shiftLeft, e, Nat.testBit_two_pow_sub_succ (by
    have : 2 ^ (127 - p) ≤ 2 ^ 127 := Nat.pow_le_pow_right (by norm_num) (by omega)
    have h2 : (2 : Nat) ^ 128 = 2 * 2 ^ 127 := by norm_num
    omega), Nat.testBit_two_pow_sub_one]
  rw [Bool.eq_iff_iff]
  by_cases h1 : i < 128 <;> by_cases h2 : 1 ≤ i <;> simp [h1, h2] <;> omega

theorem prefixMask_ok {p : Nat} (hp : p < 128) :
    prefixMask p = .ok (((2 ^ 128 - (1 <<< (127 - p))) <<< 1) % 2 ^ 128) := by
  unfold prefixMask; rw [if_pos hp]

theorem prefix_eq_iff {p a b : Nat} (hp : p < 128) (ha : a < 2 ^ 128) (hb : b < 2 ^ 128) :
    (a &&& ((2 ^ 128 - (1 <<< (127 - p))) <<< 1) % 2 ^ 128 ==
      b &&& ((2 ^ 128 - (1 <<< (127 - p))) <<< 1) % 2 ^ 128) = true ↔ Agree p a b := by
  rw [beq_iff_eq]
  constructor
  · intro h j hj
    have := congrArg (fun x => x.testBit j) h
    simp only [Nat.testBit_and, testBit_prefixMask hp] at this
    by_cases hj2 : j < 128
    · simpa [hj, hj2] using this
    · rw [Nat.testBit_lt_two_pow (lt_of_lt_of_le ha (Nat.pow_le_pow_right (by norm_num) (by omega))),
        Nat.testBit_lt_two_pow (lt_of_lt_of_le hb (Nat.pow_le_pow_right (by norm_num) (by omega)))]
  · intro h
    apply Nat.eq_of_testBit_eq
    intro j
    simp only [Nat.testBit_and, testBit_prefixMask hp]
    by_cases hj : 128 - p ≤ j
    · rw [h j hj]
    · simp [hj]

/-! ### It passes on well-formed trees -/

/-- Under a node with prefix length `p` and key `k`, on the side `b`. -/
def Under (p k : Nat) (b : Bool) (t : Tree C) : Prop :=
  ∀ e ∈ t.ents, Agree p e.key k ∧ e.key.testBit (127 - p) = b

theorem Tree.Wf.under_node {p k : Nat} {b : Bool} {i q k' : Nat} {l r : Tree C}
    (hw : (Tree.node i k' q l r).Wf) (hp : p < 128) (hu : Under p k b (Tree.node i k' q l r)) :
    p < q ∧ Agree p k k' ∧ k'.testBit (127 - p) = b := by
  obtain ⟨hq, hk', hl, hr, _, _⟩ := hw
  obtain ⟨e, he⟩ := List.exists_mem_of_ne_nil _ l.ents_ne_nil
  obtain ⟨f, hf⟩ := List.exists_mem_of_ne_nil _ r.ents_ne_nil
  obtain ⟨e1, e2⟩ := hl e he
  obtain ⟨f1, f2⟩ := hr f hf
  obtain ⟨e3, e4⟩ := hu e (by simp [Tree.ents, he])
  obtain ⟨f3, f4⟩ := hu f (by simp [Tree.ents, hf])
  have hlt : p < q := by
    by_contra hge
    rcases Nat.lt_or_eq_of_le (Nat.not_lt.1 hge) with h | rfl
    · have := (e3.trans f3.symm) (127 - q) (by omega)
      rw [e2, f2] at this; cases this
    · rw [e2] at e4; rw [f2] at f4; rw [← e4] at f4; cases f4
  refine ⟨hlt, e3.symm.trans (e1.mono (by omega)), ?_⟩
  rw [← e4]; exact (e1 (127 - p) (by omega)).symm

theorem checkRec_spec (s : Slab C) (t : Tree C) : ∀ (fuel p k : Nat) (b : Bool) (c : Nat × Nat),
    t.Mem s.leafNodes s.innerNodes s.callbackInfos → t.Wf → t.depth < fuel → p < 128 → k < 2 ^ 128 → Under p k b t →
    s.checkRec fuel t.handle p k b c = .ok (c.1 + t.ents.length, c.2 + t.inners.length) := by
  induction t with
  | leaf e =>
    intro fuel p k b c hm hw hf hp hk hu
    obtain ⟨h1, h2⟩ := hu e (by simp [Tree.ents])
    cases fuel with
    | zero => simp at hf
    | succ fuel =>
      unfold Slab.checkRec
      rw [hm.handle_leaf]
      simp only [Bool.false_eq_true, if_false, LeafNode.orderId]
      rw [show (Tree.leaf e).handle = e.slot from rfl, idx_eq hm.2.1, ok_bind, critBitMask_ok hp, ok_bind,
        prefixMask_ok hp]
      simp only [and_mask]
      rw [show assertThat (b == e.key.testBit (127 - p)) = .ok () from assertThat_ok.2 (by simp [h2]), ok_bind, ok_bind,
        show assertThat _ = .ok () from assertThat_ok.2 ((prefix_eq_iff hp hk hw).2 h1.symm), ok_bind]
      simp [Tree.ents, Tree.inners]
  | node i k' q l r ihl ihr =>
    intro fuel p k b c hm hw hf hp hk hu
    obtain ⟨hlt, ha, hb⟩ := hw.under_node hp hu
    cases fuel with
    | zero => simp at hf
    | succ fuel =>
      obtain ⟨h1, h2, h3, h4⟩ := hm
      obtain ⟨hq, hk', hl, hr, hwl, hwr⟩ := hw
      simp only [Tree.depth] at hf
      unfold Slab.checkRec
      rw [show (Tree.node i k' q l r).handle = notU32 i from rfl, isInner_not h1]
      simp only [if_true]
      rw [notU32_notU32 (by omega), idx_eq h2, ok_bind, critBitMask_ok hp, prefixMask_ok hp]
      simp only [and_mask]
      rw [show assertThat (decide (q > p)) = .ok () from assertThat_ok.2 (by simpa using hlt), ok_bind, ok_bind,
        show assertThat _ = .ok () from assertThat_ok.2 (show (b == !(k' &&& 2 ^ (127 - p) == 0)) = true by
          rw [and_mask, hb]; simp), ok_bind, ok_bind,
        show assertThat _ = .ok () from assertThat_ok.2 ((prefix_eq_iff hp hk hk').2 ha), ok_bind,
        ihl fuel q k' false _ h3 hwl (by omega) hq hk' hl, ok_bind,
        ihr fuel q k' true _ h4 hwr (by omega) hq hk' hr]
      simp only [Tree.ents, Tree.inners, List.length_append, List.length_cons]
      congr 2 <;> omega

theorem RepT.checkTree {s : Slab C} {ot : Option (Tree C)} (hr : RepT s ot) :
    s.checkTree = .ok ((oents ot).length, (oinners ot).length) := by
  unfold Slab.checkTree Slab.root
  cases ot with
  | none => rw [if_pos (hr.count_zero.2 rfl)]; rfl
  | some t =>
    have h0 : s.header.leafCount ≠ 0 := by rw [Ne, hr.count_zero]; simp
    have hi := hr.inners_le
    rw [if_neg h0, hr.root_eq]
    have hm := hr.mem
    have hw := hr.wf
    cases t with
    | leaf e =>
      simp only [hm.handle_leaf, Bool.false_eq_true, if_false]
      rfl
    | node i k q l r =>
      obtain ⟨h1, h2, h3, h4⟩ := hm
      obtain ⟨hq, hk, hl, hr', hwl, hwr⟩ := hw
      have d1 := l.depth_le_inners
      have d2 := r.depth_le_inners
      simp only [Tree.inners, List.length_cons, List.length_append] at hi
      simp only [show (Tree.node i k q l r).handle = notU32 i from rfl, isInner_not h1, if_true]
      rw [notU32_notU32 (by omega), idx_eq h2, ok_bind]
      simp only
      rw [checkRec_spec s l _ q k false _ h3 hwl (by omega) hq hk hl, ok_bind,
        checkRec_spec s r _ q k true _ h4 hwr (by omega) hq hk hr']
      simp only [oents, oinners, Tree.ents, Tree.inners, List.length_append, List.length_cons]
      congr 2 <;> omega

theorem RepT.checkInvariants {s : Slab C} {ot : Option (Tree C)} (hr : RepT s ot) : s.checkInvariants = .ok () := by
  have h1 := hr.innerAlloc.length
  have h2 := hr.leafAlloc.length
  have h3 := hr.count
  rw [List.length_map] at h2
  unfold Slab.checkInvariants
  rw [hr.checkTree, ok_bind]
  simp only
  rw [show assertThat _ = .ok () from assertThat_ok.2 (decide_eq_true h1), ok_bind,
    show assertThat _ = .ok () from assertThat_ok.2 (decide_eq_true (h3 ▸ h2)), ok_bind,
    show assertThat _ = .ok () from assertThat_ok.2 (decide_eq_true h3.symm)]

/-! ### A slab on which it passes has a well-formed tree -/

theorem isInner_iff {h : Nat} (hh : h < 2 ^ 32) : isInnerHandle h = true ↔ 2 ^ 31 ≤ h := by
  constructor
  · intro hi
    by_contra hlt
    rw [isInner_leaf (by omega)] at hi; cases hi
  · intro hge
    have e : notU32 (notU32 h) = h := notU32_notU32 hh
    rw [← e]
    exact isInner_not (by unfold notU32 U32; omega)

/-- The slab without its callback infos, as if these took no space. -/
def Slab.bare (s : Slab C) : Slab Unit :=
  ⟨s.header, s.leafNodes, s.innerNodes, List.replicate s.leafNodes.length ()⟩

theorem iterNext_bare (s : Slab C) (asc : Bool) : ∀ (fuel : Nat) (st : List Nat),
    s.bare.iterNext asc fuel st = s.iterNext asc fuel st := by
  intro fuel
  induction fuel with
  | zero => intro st; cases st <;> rfl
  | succ fuel ih =>
    intro st
    cases st with
    | nil => rfl
    | cons c st =>
      unfold Slab.iterNext
      simp only [ih]
      rfl

theorem iterCollect_bare (s : Slab C) (asc : Bool) : ∀ (fuel : Nat) (st : List Nat),
    s.bare.iterCollect asc fuel st = s.iterCollect asc fuel st := by
  intro fuel
  induction fuel with
  | zero => intro st; rfl
  | succ fuel ih =>
    intro st
    unfold Slab.iterCollect
    simp only [ih, iterNext_bare]
    rfl

theorem iterAll_bare (s : Slab C) (asc : Bool) : s.bare.iterAll asc = s.iterAll asc := by
  unfold Slab.iterAll
  rw [iterCollect_bare]; rfl

theorem findByKeyWalk_bare (s : Slab C) (k : Nat) : ∀ (fuel h : Nat),
    s.bare.findByKeyWalk k fuel h = s.findByKeyWalk k fuel h := by
  intro fuel
  induction fuel with
  | zero => intro h; rfl
  | succ fuel ih =>
    intro h
    unfold Slab.findByKeyWalk
    simp only [ih]
    rfl

theorem findByKey_bare (s : Slab C) (k : Nat) : s.bare.findByKey k = s.findByKey k := by
  unfold Slab.findByKey
  simp only [findByKeyWalk_bare]
  rfl

theorem findMinMaxWalk_bare (s : Slab C) (b : Bool) : ∀ (fuel h : Nat),
    s.bare.findMinMaxWalk b fuel h = s.findMinMaxWalk b fuel h := by
  intro fuel
  induction fuel with
  | zero => intro h; rfl
  | succ fuel ih =>
    intro h
    unfold Slab.findMinMaxWalk
    simp only [ih]
    rfl

theorem findMinMax_bare (s : Slab C) (b : Bool) : s.bare.findMinMax b = s.findMinMax b := by
  unfold Slab.findMinMax
  simp only [findMinMaxWalk_bare]
  rfl

theorem checkRec_tree {s : Slab C} (hs : s.Fits) : ∀ {fuel h p k : Nat} {b : Bool} {c c' : Nat × Nat},
    h < 2 ^ 32 → k < 2 ^ 128 → s.checkRec fuel h p k b c = .ok c' →
    ∃ t : Tree Unit, t.handle = h ∧ t.Mem s.leafNodes s.innerNodes (List.replicate s.leafNodes.length ()) ∧ t.Wf ∧
      t.depth < fuel ∧ p < 128 ∧ Under p k b t ∧ c' = (c.1 + t.ents.length, c.2 + t.inners.length) := by
  intro fuel
  induction fuel with
  | zero => intro h p k b c c' _ _ hc; simp [Slab.checkRec] at hc
  | succ fuel ih =>
    intro h p k b c c' hh hk hc
    unfold Slab.checkRec at hc
    cases hi : isInnerHandle h
    · simp only [hi, Bool.false_eq_true, if_false] at hc
      obtain ⟨n, hn, hc⟩ := bind_ok hc
      obtain ⟨mask, hmask, hc⟩ := bind_ok hc
      obtain ⟨_, ha1, hc⟩ := bind_ok hc
      obtain ⟨pm, hpm, hc⟩ := bind_ok hc
      obtain ⟨_, ha2, hfin⟩ := bind_ok hc
      have hp : p < 128 := by
        by_contra hp
        simp [critBitMask, hp] at hmask
      rw [critBitMask_ok hp] at hmask
      cases hmask
      rw [prefixMask_ok hp] at hpm
      cases hpm
      rw [assertThat_ok, and_mask, beq_iff_eq] at ha1
      have hnl := idx_ok.1 hn
      have hlen := lt_of_getElem? hnl
      have hfn : n.key < 2 ^ 128 := by
        have := (hs.2.1 n (List.mem_of_getElem? hnl)).1
        norm_num at this ⊢; exact this
      rw [assertThat_ok, LeafNode.orderId, prefix_eq_iff hp hk hfn] at ha2
      have hlt : h < 2 ^ 31 := by
        by_contra hge
        rw [(isInner_iff hh).2 (by omega)] at hi; cases hi
      refine ⟨.leaf ⟨h, n.key, n.baseQuantity, ()⟩, rfl, ⟨hlt, hnl, ?_⟩, hfn, by simp [Tree.depth], hp, ?_, ?_⟩
      · simp [hlen]
      · intro e he
        simp only [Tree.ents, List.mem_singleton] at he
        subst he
        exact ⟨ha2.symm, ha1.symm⟩
      · cases hfin
        simp [Tree.ents, Tree.inners]
    · simp only [hi, if_true] at hc
      obtain ⟨n, hn, hc⟩ := bind_ok hc
      obtain ⟨_, ha0, hc⟩ := bind_ok hc
      obtain ⟨mask, hmask, hc⟩ := bind_ok hc
      obtain ⟨_, ha1, hc⟩ := bind_ok hc
      obtain ⟨pm, hpm, hc⟩ := bind_ok hc
      obtain ⟨_, ha2, hc⟩ := bind_ok hc
      obtain ⟨c1, hc1, hc2⟩ := bind_ok hc
      have hp : p < 128 := by
        by_contra hp
        simp [critBitMask, hp] at hmask
      rw [critBitMask_ok hp] at hmask
      cases hmask
      rw [prefixMask_ok hp] at hpm
      cases hpm
      rw [assertThat_ok, and_mask, beq_iff_eq] at ha1
      rw [assertThat_ok, decide_eq_true_eq] at ha0
      have hnl := idx_ok.1 hn
      have hlen := lt_of_getElem? hnl
      have hfn := hs.2.2 n (List.mem_of_getElem? hnl)
      have hnk : n.key < 2 ^ 128 := by
        have := hfn.1
        norm_num at this ⊢; exact this
      rw [assertThat_ok, prefix_eq_iff hp hk hnk] at ha2
      have hge := (isInner_iff hh).1 hi
      have h32 : (256 : Nat) ^ 4 = 2 ^ 32 := by norm_num
      obtain ⟨tl, l1, l2, l3, l4, l5, l6, rfl⟩ := ih (h32 ▸ hfn.2.2.1) hnk hc1
      obtain ⟨tr, r1, r2, r3, r4, _, r6, rfl⟩ := ih (h32 ▸ hfn.2.2.2) hnk hc2
      refine ⟨.node (notU32 h) n.key n.prefixLen tl tr, notU32_notU32 hh, ⟨?_, ?_, l2, r2⟩,
        ⟨l5, hnk, l6, r6, l3, r3⟩, ?_, hp, ?_, ?_⟩
      · unfold notU32 U32; omega
      · rw [hnl, l1, r1]
      · simp only [Tree.depth]; omega
      · intro e he
        simp only [Tree.ents, List.mem_append] at he
        have hag : Agree n.prefixLen e.key n.key := he.elim (fun h => (l6 e h).1) (fun h => (r6 e h).1)
        refine ⟨(hag.mono (by omega)).trans ha2.symm, ?_⟩
        rw [hag (127 - p) (by omega)]; exact ha1.symm
      · simp only [Tree.ents, Tree.inners, List.length_append, List.length_cons]
        congr 1 <;> omega

/-- What the check establishes about the tree of a slab. -/
theorem check_tree {s : Slab C} (hs : s.Fits) (hc : s.checkInvariants = .ok ())
    (hroot : s.header.leafCount = 1 → s.header.rootNode < s.leafNodes.length) :
    s.header.leafCount = 0 ∨ ∃ t : Tree Unit, t.handle = s.header.rootNode ∧
      t.Mem s.leafNodes s.innerNodes s.bare.callbackInfos ∧ t.Wf ∧ t.depth ≤ s.innerNodes.length ∧
      t.ents.length = s.header.leafCount := by
  unfold Slab.checkInvariants at hc
  obtain ⟨c, ht, hc⟩ := bind_ok hc
  obtain ⟨_, h1, hc⟩ := bind_ok hc
  obtain ⟨_, h2, h3⟩ := bind_ok hc
  rw [assertThat_ok, decide_eq_true_eq] at h3
  unfold Slab.checkTree Slab.root at ht
  by_cases h0 : s.header.leafCount = 0
  · exact .inl h0
  · right
    rw [if_neg h0] at ht
    have h32 : (256 : Nat) ^ 4 = 2 ^ 32 := by norm_num
    have hr32 : s.header.rootNode < 2 ^ 32 := h32 ▸ hs.1.2.2.2.2.2.2.1
    simp only at ht
    cases hi : isInnerHandle s.header.rootNode
    · simp only [hi, Bool.false_eq_true, if_false] at ht
      cases ht
      have hlen := hroot h3.symm
      have hnl := List.getElem?_eq_getElem hlen
      refine ⟨.leaf ⟨s.header.rootNode, s.leafNodes[s.header.rootNode].key,
        s.leafNodes[s.header.rootNode].baseQuantity, ()⟩, rfl, ⟨?_, hnl, ?_⟩, ?_, by simp [Tree.depth], h3⟩
      · show s.header.rootNode < 2 ^ 31
        by_contra hge
        rw [(isInner_iff hr32).2 (by omega)] at hi; cases hi
      · simp [Slab.bare, hlen]
      · have := (hs.2.1 _ (List.getElem_mem hlen)).1
        show s.leafNodes[s.header.rootNode].key < 2 ^ 128
        norm_num at this ⊢; exact this
    · simp only [hi, if_true] at ht
      obtain ⟨n, hn, ht⟩ := bind_ok ht
      obtain ⟨c1, hc1, hc2⟩ := bind_ok ht
      have hnl := idx_ok.1 hn
      have hfn := hs.2.2 n (List.mem_of_getElem? hnl)
      have hnk : n.key < 2 ^ 128 := by
        have := hfn.1
        norm_num at this ⊢; exact this
      have hge := (isInner_iff hr32).1 hi
      obtain ⟨tl, l1, l2, l3, l4, l5, l6, rfl⟩ := checkRec_tree hs (h32 ▸ hfn.2.2.1) hnk hc1
      obtain ⟨tr, r1, r2, r3, r4, _, r6, rfl⟩ := checkRec_tree hs (h32 ▸ hfn.2.2.2) hnk hc2
      refine ⟨.node (notU32 s.header.rootNode) n.key n.prefixLen tl tr, notU32_notU32 hr32, ⟨?_, ?_, l2, r2⟩,
        ⟨l5, hnk, l6, r6, l3, r3⟩, ?_, ?_⟩
      · unfold notU32 U32; omega
      · rw [hnl, l1, r1]
      · simp only [Tree.depth]; omega
      · simp only [Tree.ents, List.length_append]
        simp only at h3
        omega

end AOB
