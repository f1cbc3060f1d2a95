import Verif.Proofs.SlabInsert
/-
`remove_by_key` refines removal from the sorted list of entries.
-/
namespace AOB
variable {C : Type}
open Ctx

/-- In a list sorted by key, the position of a key is unique. -/
theorem split_unique {L R L' R' : List (Entry C)} {e e' : Entry C}
    (hs : (L ++ e :: R).Pairwise (fun a b => a.key < b.key))
    (heq : L ++ e :: R = L' ++ e' :: R') (hk : e.key = e'.key) :
    L = L' ∧ e = e' ∧ R = R' := by
  have hs' := hs
  rw [heq] at hs'
  rw [List.pairwise_append] at hs hs'
  rcases List.append_eq_append_iff.1 heq with ⟨M, h1, h2⟩ | ⟨M, h1, h2⟩
  · cases M with
    | nil => simp at h1 h2; exact ⟨h1.symm, h2.1, h2.2⟩
    | cons m M =>
      simp at h2
      have := hs'.2.2 e (by rw [h1]; simp [h2.1]) e' (by simp)
      omega
  · cases M with
    | nil => simp at h1 h2; exact ⟨h1, h2.1.symm, h2.2.symm⟩
    | cons m M =>
      simp at h2
      have := hs.2.2 e' (by rw [h1]; simp [h2.1]) e (by simp)
      omega

/-- Registers of the descent at the hole of a non-empty context. -/
def regsAt (f : Frame C) (c : Ctx C) (h : Nat) : Slab.RemoveRegs :=
  { grandparent := parent c, parent := notU32 f.slot, child := h, critBit := f.dir }

theorem removeWalk_leaf (s : Slab C) (k fuel : Nat) (r : Slab.RemoveRegs)
    (h : isInnerHandle r.child = false) :
    s.removeWalk k (fuel + 1) r = (do
      let leaf ← idx s.leafNodes r.child
      if leaf.key ≠ k then .ok none else .ok (some r)) := by
  conv_lhs => unfold Slab.removeWalk
  simp [h]

theorem removeWalk_inner (s : Slab C) (k fuel : Nat) (r : Slab.RemoveRegs)
    (h : isInnerHandle r.child = true) :
    s.removeWalk k (fuel + 1) r = (do
      let inner ← idx s.innerNodes (notU32 r.child)
      let w ← inner.walkDown k
      s.removeWalk k fuel { grandparent := some (r.parent, r.critBit), parent := r.child,
                            child := w.1, critBit := w.2 }) := by
  conv_lhs => unfold Slab.removeWalk
  simp [h]

theorem removeWalk_spec (s : Slab C) (k : Nat) (t : Tree C) :
    ∀ (f : Frame C) (c : Ctx C) (fuel : Nat),
      (plug (f :: c) t).Mem s.leafNodes s.innerNodes s.callbackInfos →
      (plug (f :: c) t).Wf → t.depth < fuel →
      (∃ f' c' e, plug (f :: c) t = plug (f' :: c') (.leaf e) ∧ e.key = k ∧
        s.removeWalk k fuel (regsAt f c t.handle) = .ok (some (regsAt f' c' e.slot))) ∨
      ((∀ e ∈ t.ents, e.key ≠ k) ∧ s.removeWalk k fuel (regsAt f c t.handle) = .ok none) := by
  induction t with
  | leaf e =>
    intro f c fuel hm hw hfu
    obtain ⟨hmc, hml⟩ := (mem_plug _ _).1 hm
    cases fuel with
    | zero => simp at hfu
    | succ fuel =>
      rw [removeWalk_leaf _ _ _ _ (by simpa [regsAt] using hml.handle_leaf)]
      simp only [regsAt]
      rw [show (Tree.leaf e).handle = e.slot from rfl, idx_eq hml.2.1, ok_bind]
      by_cases hek : e.key = k
      · left
        exact ⟨f, c, e, rfl, hek, by simp [hek]⟩
      · right
        refine ⟨?_, by simp [hek]⟩
        intro e' he'
        simp only [Tree.ents, List.mem_singleton] at he'
        subst he'; exact hek
  | node i nk p l r ihl ihr =>
    intro f c fuel hm hw hfu
    obtain ⟨hmc, hmn⟩ := (mem_plug _ _).1 hm
    obtain ⟨hwc, hwn, hfe⟩ := (wf_plug _ _).1 hw
    cases fuel with
    | zero => simp at hfu
    | succ fuel =>
      obtain ⟨hi31, hin, hml, hmr⟩ := hmn
      obtain ⟨hp, hnk, hpl, hpr, hwl, hwr⟩ := hwn
      rw [removeWalk_inner _ _ _ _ (by simpa [regsAt, Tree.handle] using isInner_not hi31)]
      simp only [regsAt]
      rw [show (Tree.node i nk p l r).handle = notU32 i from rfl, notU32_notU32 (by omega), idx_eq hin, ok_bind, walkDown_ok hp, ok_bind]
      simp only [Tree.depth] at hfu
      simp only
      cases hb : k.testBit (127 - p)
      · let g : Frame C := ⟨i, nk, p, false, r⟩
        have hpl' : plug (f :: c) (.node i nk p l r) = plug (g :: f :: c) l := by
          simp [plug, Frame.fill, g]
        rcases ihl g (f :: c) fuel (hpl' ▸ hm) (hpl' ▸ hw) (by omega) with
          ⟨f', c', e, h1, h2, h3⟩ | ⟨h1, h2⟩
        · left
          refine ⟨f', c', e, by rw [hpl', h1], h2, ?_⟩
          simpa [InnerNode.child, parent, regsAt, g] using h3
        · right
          refine ⟨?_, by simpa [InnerNode.child, parent, regsAt, g] using h2⟩
          intro e he
          simp only [Tree.ents, List.mem_append] at he
          rcases he with he | he
          · exact h1 e he
          · rintro rfl
            have := (hpr e he).2
            rw [this] at hb; cases hb
      · let g : Frame C := ⟨i, nk, p, true, l⟩
        have hpl' : plug (f :: c) (.node i nk p l r) = plug (g :: f :: c) r := by
          simp [plug, Frame.fill, g]
        rcases ihr g (f :: c) fuel (hpl' ▸ hm) (hpl' ▸ hw) (by omega) with
          ⟨f', c', e, h1, h2, h3⟩ | ⟨h1, h2⟩
        · left
          refine ⟨f', c', e, by rw [hpl', h1], h2, ?_⟩
          simpa [InnerNode.child, parent, regsAt, g] using h3
        · right
          refine ⟨?_, by simpa [InnerNode.child, parent, regsAt, g] using h2⟩
          intro e he
          simp only [Tree.ents, List.mem_append] at he
          rcases he with he | he
          · rintro rfl
            have := (hpl e he).2
            rw [this] at hb; cases hb
          · exact h1 e he

/-- First step and loop of `remove_by_key` on a tree with at least two leaves. -/
theorem removeStart_spec (s : Slab C) (k : Nat) {i nk p : Nat} {l r : Tree C}
    (hm : (Tree.node i nk p l r).Mem s.leafNodes s.innerNodes s.callbackInfos)
    (hw : (Tree.node i nk p l r).Wf) {fuel : Nat}
    (hfu : (Tree.node i nk p l r).depth ≤ fuel) :
    ∃ (h : Nat) (b : Bool), s.innerNodes[i]? = some ⟨nk, p, l.handle, r.handle⟩ ∧
      (⟨nk, p, l.handle, r.handle⟩ : InnerNode).walkDown k = .ok (h, b) ∧
      ((∃ f' c' e, Tree.node i nk p l r = plug (f' :: c') (.leaf e) ∧ e.key = k ∧
        s.removeWalk k fuel ⟨none, notU32 i, h, b⟩ = .ok (some (regsAt f' c' e.slot))) ∨
      ((∀ e ∈ (Tree.node i nk p l r).ents, e.key ≠ k) ∧
        s.removeWalk k fuel ⟨none, notU32 i, h, b⟩ = .ok none)) := by
  obtain ⟨hi31, hin, hml, hmr⟩ := id hm
  obtain ⟨hp, hnk, hpl, hpr, hwl, hwr⟩ := id hw
  refine ⟨_, _, hin, walkDown_ok hp, ?_⟩
  simp only [Tree.depth] at hfu
  simp only
  cases hb : k.testBit (127 - p)
  · let g : Frame C := ⟨i, nk, p, false, r⟩
    have hpl' : Tree.node i nk p l r = plug (g :: []) l := by
      simp [plug, Frame.fill, g]
    rcases removeWalk_spec s k l g [] fuel (hpl' ▸ hm) (hpl' ▸ hw) (by omega) with
      ⟨f', c', e, h1, h2, h3⟩ | ⟨h1, h2⟩
    · left
      refine ⟨f', c', e, by rw [hpl', h1], h2, ?_⟩
      simpa [InnerNode.child, parent, regsAt, g] using h3
    · right
      refine ⟨?_, by simpa [InnerNode.child, parent, regsAt, g] using h2⟩
      intro e he
      simp only [Tree.ents, List.mem_append] at he
      rcases he with he | he
      · exact h1 e he
      · rintro rfl
        have := (hpr e he).2
        rw [this] at hb; cases hb
  · let g : Frame C := ⟨i, nk, p, true, l⟩
    have hpl' : Tree.node i nk p l r = plug (g :: []) r := by
      simp [plug, Frame.fill, g]
    rcases removeWalk_spec s k r g [] fuel (hpl' ▸ hm) (hpl' ▸ hw) (by omega) with
      ⟨f', c', e, h1, h2, h3⟩ | ⟨h1, h2⟩
    · left
      refine ⟨f', c', e, by rw [hpl', h1], h2, ?_⟩
      simpa [InnerNode.child, parent, regsAt, g] using h3
    · right
      refine ⟨?_, by simpa [InnerNode.child, parent, regsAt, g] using h2⟩
      intro e he
      simp only [Tree.ents, List.mem_append] at he
      rcases he with he | he
      · rintro rfl
        have := (hpl e he).2
        rw [this] at hb; cases hb
      · exact h1 e he

/-! ### Freeing -/

theorem freeLeaf_ok {s : Slab C} {a : Nat} {used : List Nat} {n : LeafNode}
    (ha : Alloc leafNext s.leafNodes s.header.leafFreeListLen s.header.leafFreeListHead
      s.header.leafBumpIndex (a :: used)) (hn : s.leafNodes[a]? = some n)
    (hcap : s.leafNodes.length ≤ 2 ^ 31) :
    ∃ ls', s.freeLeaf a = .ok { s with
          leafNodes := ls',
          header := { s.header with leafFreeListLen := s.header.leafFreeListLen + 1,
                                    leafFreeListHead := a } } ∧
      ls'.length = s.leafNodes.length ∧ (∀ i, i ≠ a → ls'[i]? = s.leafNodes[i]?) ∧
      Alloc leafNext ls' (s.header.leafFreeListLen + 1) a s.header.leafBumpIndex used := by
  have hlen := ha.length
  have hble := ha.bump_le
  have halt := lt_of_getElem? hn
  unfold Slab.freeLeaf
  by_cases h0 : s.header.leafFreeListLen = 0
  · simp only [h0, ne_eq, not_true_eq_false, if_false, ok_bind]
    rw [addU32_ok (by norm_num), ok_bind]
    refine ⟨s.leafNodes, rfl, rfl, fun _ _ => rfl, ?_⟩
    have := ha.free (xs' := s.leafNodes) rfl (fun _ _ => rfl) hn (fun h => absurd h0 h)
    rwa [h0] at this
  · simp only [ne_eq, h0, not_false_eq_true, if_true]
    rw [idx_eq hn, ok_bind, setIdx_eq halt, ok_bind, addU32_ok (by simp at hlen; omega), ok_bind]
    refine ⟨_, rfl, by simp, ?_, ?_⟩
    · intro i hi
      rw [List.getElem?_set_ne (fun h => hi h.symm)]
    · refine ha.free (by simp) ?_ (List.getElem?_set_self halt) ?_
      · intro i hi
        rw [List.getElem?_set_ne (fun h => hi h.symm)]
      · intro _
        obtain ⟨m, hm, _, hlt, _⟩ := ha.pop h0
        unfold leafNext
        simp only
        exact Nat.mod_eq_of_lt (by unfold U32; omega)

theorem freeInner_ok {s : Slab C} {b : Nat} {used : List Nat} {n : InnerNode}
    (ha : Alloc innerNext s.innerNodes s.header.innerNodeFreeListLen s.header.innerNodeFreeListHead
      s.header.innerNodeBumpIndex (b :: used)) (hn : s.innerNodes[b]? = some n)
    (hcap : s.innerNodes.length < 2 ^ 31) :
    ∃ is', s.freeInnerNode (notU32 b) = .ok { s with
          innerNodes := is',
          header := { s.header with innerNodeFreeListLen := s.header.innerNodeFreeListLen + 1,
                                    innerNodeFreeListHead := b } } ∧
      is'.length = s.innerNodes.length ∧ (∀ i, i ≠ b → is'[i]? = s.innerNodes[i]?) ∧
      Alloc innerNext is' (s.header.innerNodeFreeListLen + 1) b s.header.innerNodeBumpIndex used := by
  have hlen := ha.length
  have hble := ha.bump_le
  have halt := lt_of_getElem? hn
  unfold Slab.freeInnerNode
  rw [notU32_notU32 (by omega)]
  by_cases h0 : s.header.innerNodeFreeListLen = 0
  · simp only [h0, ne_eq, not_true_eq_false, if_false, ok_bind]
    rw [addU32_ok (by norm_num), ok_bind]
    refine ⟨s.innerNodes, rfl, rfl, fun _ _ => rfl, ?_⟩
    have := ha.free (xs' := s.innerNodes) rfl (fun _ _ => rfl) hn (fun h => absurd h0 h)
    rwa [h0] at this
  · simp only [ne_eq, h0, not_false_eq_true, if_true]
    rw [idx_eq hn, ok_bind, setIdx_eq halt, ok_bind, addU32_ok (by simp at hlen; omega), ok_bind]
    refine ⟨_, rfl, by simp, ?_, ?_⟩
    · intro i hi
      rw [List.getElem?_set_ne (fun h => hi h.symm)]
    · refine ha.free (by simp) ?_ (List.getElem?_set_self halt) ?_
      · intro i hi
        rw [List.getElem?_set_ne (fun h => hi h.symm)]
      · intro _
        obtain ⟨m, hm, _, hlt, _⟩ := ha.pop h0
        unfold innerNext
        simp only
        exact Nat.mod_eq_of_lt (by unfold U32; omega)

/-! ### Removal -/

/-- Removing a key that is present. -/
theorem RepT.remove_present {s : Slab C} {ot : Option (Tree C)} (hr : RepT s ot) {key : Nat}
    {L R : List (Entry C)} {e : Entry C} (he : oents ot = L ++ e :: R) (hek : e.key = key) :
    ∃ s' ot', s.removeByKey key = .ok (some (⟨key, e.qty⟩, e.cb), s') ∧ RepT s' ot' ∧
      oents ot' = L ++ R ∧ SameSize s s' ∧ s'.callbackInfos = s.callbackInfos := by
  have hcap := hr.cap
  have hlens := hr.lens
  cases ot with
  | none => simp [oents] at he
  | some t =>
    have h0 : s.header.leafCount ≠ 0 := by rw [Ne, hr.count_zero]; simp
    have hmem := hr.mem
    have hwf := hr.wf
    have hinl := hr.inners_le
    have hdl := t.depth_le_inners
    simp only [oents] at he
    unfold Slab.removeByKey
    rw [if_neg h0]
    simp only
    rw [hr.root_eq]
    cases t with
    | leaf e' =>
      have heq : e' = e ∧ L = [] ∧ R = [] := by
        simp only [Tree.ents] at he
        cases L with
        | nil => simp at he; exact ⟨he.1, rfl, he.2⟩
        | cons x L => simp at he
      obtain ⟨rfl, rfl, rfl⟩ := heq
      rw [hmem.handle_leaf]
      simp only [Bool.false_eq_true, if_false]
      rw [show (Tree.leaf e').handle = e'.slot from rfl, idx_eq hmem.2.1, ok_bind]
      simp only [hek, if_true, ok_bind]
      have hla : Alloc leafNext s.leafNodes s.header.leafFreeListLen s.header.leafFreeListHead
        s.header.leafBumpIndex [e'.slot] := hr.leafAlloc
      obtain ⟨ls', hf, hl1, hl2, hl3⟩ := freeLeaf_ok hla hmem.2.1 hcap
      rw [hf]
      simp only [ok_bind, Slab.getCallbackInfo]
      rw [idx_eq hmem.2.2, ok_bind]
      refine ⟨_, none, rfl, ?_, rfl, ⟨hl1, rfl, rfl⟩, rfl⟩
      constructor
      · intro t ht; cases ht
      · rfl
      · exact hl3
      · exact hr.innerAlloc
      · simp only [hl1]; exact hr.lens
      · simp only [hl1]; exact hr.cbs
      · simp only [hl1]; exact hr.cap
    | node i nk p l r =>
      obtain ⟨h, b, hin, hwd, hrest⟩ := removeStart_spec s key hmem hwf
        (fuel := s.innerNodes.length + 1) (by omega)
      have hi31 : i < 2 ^ 31 := hmem.1
      rw [show (Tree.node i nk p l r).handle = notU32 i from rfl, isInner_not hi31]
      simp only [if_true]
      rw [notU32_notU32 (by omega), idx_eq hin, ok_bind, hwd]
      simp only [ok_bind]
      rcases hrest with ⟨f, c, e', hpl, hek', hwalk⟩ | ⟨hno, _⟩
      · rw [hwalk, ok_bind]
        simp only [regsAt]
        set t := Tree.node i nk p l r with ht
        have hmem2 := hmem
        rw [hpl] at hmem2
        obtain ⟨hmc, hml⟩ := (mem_plug _ _).1 hmem2
        have hwf2 := hwf
        rw [hpl] at hwf2
        obtain ⟨hwc, hwl, hfe⟩ := (wf_plug _ _).1 hwf2
        have hent : t.ents = lefts (f :: c) ++ e' :: rights (f :: c) := by
          rw [hpl, plug_ents]; simp [Tree.ents]
        have huniq : L = lefts (f :: c) ∧ e = e' ∧ R = rights (f :: c) := by
          have hs := hwf.sorted
          rw [he] at hs
          exact split_unique hs (by rw [← he, hent]) (by rw [hek, hek'])
        obtain ⟨hL, rfl, hR⟩ := huniq
        have hLR : L ++ R = lefts c ++ f.sib.ents ++ rights c := by
          rw [hL, hR]
          simp only [lefts, rights]
          cases f.dir <;> simp
        obtain ⟨hf31, hfn, hms, hmcc⟩ := hmc
        have hinn : t.inners.Perm (f.slot :: (f.sib.inners ++ inners c)) := by
          rw [hpl]; exact plug_inners (f :: c) (.leaf e)
        have hnd : (f.slot :: (f.sib.inners ++ inners c)).Nodup :=
          hinn.nodup_iff.1 hr.innerAlloc.nodup
        rw [List.nodup_cons] at hnd
        have hndL : (e.slot :: (L ++ R).map Entry.slot).Nodup := by
          apply (map_slot_insert_perm L R e).nodup_iff.1
          have := hr.leafAlloc.nodup
          simp only [oents] at this
          rwa [he] at this
        rw [List.nodup_cons] at hndL
        have hslots : ∀ x ∈ L ++ R, x.slot ≠ e.slot := by
          intro x hx h
          exact hndL.1 (List.mem_map.2 ⟨x, hx, h⟩)
        rw [notU32_notU32 (by omega), idx_eq hfn, ok_bind, Frame.inode_child_not]
        -- redirecting the grandparent (or the root)
        have hstep : ∃ (is1 : List InnerNode) (root1 : Nat),
            s.relink (parent c) f.sib.handle =
              .ok { s with innerNodes := is1, header := { s.header with rootNode := root1 } } ∧
            is1.length = s.innerNodes.length ∧
            (∀ j, j ∉ inners c → is1[j]? = s.innerNodes[j]?) ∧
            Ctx.Mem s.leafNodes is1 s.callbackInfos c f.sib.handle ∧
            root1 = top c f.sib.handle := by
          cases c with
          | nil => exact ⟨s.innerNodes, _, rfl, rfl, fun _ _ => rfl, trivial, rfl⟩
          | cons g c' =>
            simp only [Slab.relink, parent, List.head?_cons, Option.map_some]
            have hg := hmcc.head_mem
            have hg31 : g.slot < 2 ^ 31 := hmcc.1
            rw [notU32_notU32 (by omega), idx_eq hg, ok_bind, setIdx_eq (lt_of_getElem? hg), ok_bind,
              Frame.inode_setChild]
            refine ⟨_, s.header.rootNode, rfl, by simp, ?_, ?_, ?_⟩
            · intro j hj
              rw [List.getElem?_set_ne]
              rintro rfl
              exact hj (by simp [inners])
            · exact hmcc.redirect (List.nodup_append.1 hnd.2).2.1
            · rw [hr.root_eq, hpl, plug_handle]
              simp only [top]
              rw [List.getLast?_cons_cons, List.getLast?_eq_some_getLast (by simp : g :: c' ≠ [])]
        obtain ⟨is1, root1, hst, hi1, hi2, hi3, hroot1⟩ := hstep
        rw [hst, ok_bind]
        have hcount : s.header.leafCount = t.ents.length := hr.count
        simp only
        rw [subU_ok (by omega), ok_bind, idx_eq hml.2.1, ok_bind]
        have hla : Alloc leafNext s.leafNodes s.header.leafFreeListLen s.header.leafFreeListHead
            s.header.leafBumpIndex (e.slot :: (L ++ R).map Entry.slot) := by
          apply hr.leafAlloc.perm
          simp only [oents, he]
          exact (map_slot_insert_perm L R e).symm
        obtain ⟨ls', hf1, hl1, hl2, hl3⟩ := freeLeaf_ok
          (s := { s with
              innerNodes := is1,
              header := { s.header with rootNode := root1, leafCount := s.header.leafCount - 1 } })
          hla hml.2.1 hcap
        rw [hf1, ok_bind]
        simp only at hl1 hl2 hl3
        have hia : Alloc innerNext is1 s.header.innerNodeFreeListLen s.header.innerNodeFreeListHead
            s.header.innerNodeBumpIndex (f.slot :: (f.sib.inners ++ inners c)) := by
          apply (hr.innerAlloc.perm hinn.symm).congr hi1
          intro j hj
          apply hi2
          intro hjc
          exact hj (by simp [hjc])
        have hfc : f.slot ∉ inners c := fun h => hnd.1 (List.mem_append_right _ h)
        obtain ⟨is2, hf2, hj1, hj2, hj3⟩ := freeInner_ok
          (s := { s with
              leafNodes := ls'
              innerNodes := is1,
              header := { s.header with
                rootNode := root1, leafCount := s.header.leafCount - 1,
                leafFreeListLen := s.header.leafFreeListLen + 1, leafFreeListHead := e.slot } })
          hia (by simp only; rw [hi2 f.slot hfc]; exact hfn) (by simp only; omega)
        rw [hf2, ok_bind]
        simp only at hj1 hj2 hj3
        simp only [Slab.getCallbackInfo]
        rw [idx_eq hml.2.2, ok_bind]
        rw [hek]
        refine ⟨_, some (plug c f.sib), rfl, ?_, ?_, ?_, rfl⟩
        · have hents' : (plug c f.sib).ents = L ++ R := by rw [plug_ents, hLR]
          constructor
          · intro t' ht'
            cases ht'
            refine ⟨?_, ?_, ?_⟩
            · rw [plug_handle]; exact hroot1
            · rw [mem_plug]
              constructor
              · apply hi3.congr
                · intro x hx
                  apply hl2
                  apply hslots
                  rw [hLR]
                  simp only [List.mem_append] at hx ⊢
                  tauto
                · intro j hj
                  apply hj2
                  rintro rfl
                  exact hfc hj
                · intros; rfl
              · apply hms.congr
                · intro j hj
                  simp only [Tree.leafSlots, List.mem_map] at hj
                  obtain ⟨x, hx, rfl⟩ := hj
                  apply hl2
                  apply hslots
                  rw [hLR]; simp [hx]
                · intro j hj
                  rw [hj2, hi2]
                  · intro hjc
                    exact (List.nodup_append.1 hnd.2).2.2 j hj j hjc rfl
                  · rintro rfl
                    exact hnd.1 (List.mem_append_left _ hj)
                · intros; rfl
            · rw [wf_plug]
              exact ⟨hwc.2.2.2.2.2, hwc.2.2.1, hwc.2.2.2.2.1⟩
          · simp only [oents, hents']
            rw [hcount, he]; simp
          · simp only [oents, hents']
            exact hl3
          · simp only [oinners]
            exact hj3.perm (plug_inners c f.sib)
          · simp only [hl1, hj1, hi1]; exact hr.lens
          · simp only [hl1]; exact hr.cbs
          · simp only [hl1]; exact hr.cap
        · simp only [oents]
          rw [plug_ents, hLR]
        · exact ⟨hl1, by simp only; rw [hj1, hi1], rfl⟩
      · exfalso
        exact hno e (by rw [he]; simp) hek

/-- Removing a missing key from a slab that is empty or holds at least two orders. -/
theorem RepT.remove_missing {s : Slab C} {ot : Option (Tree C)} (hr : RepT s ot) {key : Nat}
    (hne : ∀ e ∈ oents ot, e.key ≠ key) (hlen : (oents ot).length ≠ 1) :
    s.removeByKey key = .ok (none, s) := by
  unfold Slab.removeByKey
  cases ot with
  | none => rw [if_pos (hr.count_zero.2 rfl)]
  | some t =>
    have h0 : s.header.leafCount ≠ 0 := by rw [Ne, hr.count_zero]; simp
    have hmem := hr.mem
    have hwf := hr.wf
    have hinl := hr.inners_le
    have hdl := t.depth_le_inners
    rw [if_neg h0]
    simp only
    rw [hr.root_eq]
    cases t with
    | leaf e => simp [oents, Tree.ents] at hlen
    | node i nk p l r =>
      obtain ⟨h, b, hin, hwd, hrest⟩ := removeStart_spec s key hmem hwf
        (fuel := s.innerNodes.length + 1) (by omega)
      have hi31 : i < 2 ^ 31 := hmem.1
      rw [show (Tree.node i nk p l r).handle = notU32 i from rfl, isInner_not hi31]
      simp only [if_true]
      rw [notU32_notU32 (by omega), idx_eq hin, ok_bind, hwd]
      simp only [ok_bind]
      rcases hrest with ⟨f, c, e, hpl, hek, hwalk⟩ | ⟨hno, hwalk⟩
      · exfalso
        apply hne e _ hek
        simp only [oents]
        rw [hpl, plug_ents]; simp [Tree.ents]
      · rw [hwalk, ok_bind]

/-- Removing a missing key from a slab that holds exactly one order: the code looks at slot 0, and
panics if the stale contents of that slot carry the key. -/
theorem RepT.remove_missing_one {s : Slab C} {ot : Option (Tree C)} (hr : RepT s ot) {key : Nat}
    {e : Entry C} (he : oents ot = [e]) (hne : e.key ≠ key) :
    s.removeByKey key =
      if s.leafNodes[0]?.map LeafNode.key = some key then .error .panic else .ok (none, s) := by
  have hcap := hr.cap
  have hlens := hr.lens
  unfold Slab.removeByKey
  cases ot with
  | none => simp [oents] at he
  | some t =>
    have h0 : s.header.leafCount ≠ 0 := by rw [Ne, hr.count_zero]; simp
    have hmem := hr.mem
    rw [if_neg h0]
    simp only
    rw [hr.root_eq]
    cases t with
    | leaf e' =>
      simp only [oents, Tree.ents, List.cons.injEq, and_true] at he
      subst he
      rw [hmem.handle_leaf]
      simp only [Bool.false_eq_true, if_false]
      rw [show (Tree.leaf e').handle = e'.slot from rfl, idx_eq hmem.2.1, ok_bind]
      simp only [hne, if_false, ok_bind]
      have hs31 := hmem.1
      have h0lt : 0 < s.leafNodes.length := by
        have := lt_of_getElem? hmem.2.1
        omega
      rw [removeWalk_leaf _ _ _ _ (isInner_leaf (by norm_num)), idx_eq (List.getElem?_eq_getElem h0lt), ok_bind, List.getElem?_eq_getElem h0lt]
      simp only [Option.map_some, Option.some.injEq]
      by_cases hz : s.leafNodes[0].key = key
      · simp only [hz, ne_eq, not_true_eq_false, if_false, if_true, ok_bind]
        have : s.innerNodes[notU32 e'.slot]? = none := by
          rw [List.getElem?_eq_none_iff]
          unfold notU32 U32
          omega
        unfold idx
        rw [this]
        rfl
      · simp only [ne_eq, hz, not_false_eq_true, if_true, if_false, ok_bind]
    | node i nk p l r =>
      exfalso
      have h1 := (Tree.node i nk p l r).ents_length
      simp only [oents] at he
      rw [he] at h1
      simp [Tree.inners] at h1

end AOB
