import Verif.Proofs.SlabInv
/-
`insert_leaf` refines insertion into the sorted list of entries.
-/
namespace AOB
variable {C : Type}

namespace Ctx

/-- The register pair `(parent_node, previous_critbit)` for a context. -/
def parent (c : Ctx C) : Option (Nat × Bool) := c.head?.map (fun f => (notU32 f.slot, f.dir))

theorem Mem.head_mem {ls is} {cs : List C} {f : Frame C} {c : Ctx C} {h : Nat}
    (hm : Mem ls is cs (f :: c) h) : is[f.slot]? = some (f.inode h) := hm.2.1

/-- Redirecting the hole of a context by rewriting its innermost node. -/
theorem Mem.redirect {ls is} {cs : List C} {f : Frame C} {c : Ctx C} {h h' : Nat}
    (hm : Mem ls is cs (f :: c) h) (hnd : (inners (f :: c)).Nodup) :
    Mem ls (is.set f.slot (f.inode h')) cs (f :: c) h' := by
  obtain ⟨h0, h1, h2, h3⟩ := hm
  have hlt := lt_of_getElem? h1
  simp only [inners, List.nodup_cons] at hnd
  refine ⟨h0, ?_, ?_, ?_⟩
  · rw [List.getElem?_set_self hlt]
  · apply h2.congr
    · intros; rfl
    · intro i hi
      rw [List.getElem?_set_ne]
      rintro rfl
      exact hnd.1 (List.mem_append_left _ hi)
    · intros; rfl
  · apply h3.congr
    · intros; rfl
    · intro i hi
      rw [List.getElem?_set_ne]
      rintro rfl
      exact hnd.1 (List.mem_append_right _ hi)
    · intros; rfl

end Ctx

open Ctx

theorem walkDown_ok {n : InnerNode} {k : Nat} (hp : n.prefixLen < 128) :
    n.walkDown k = .ok (n.child (k.testBit (127 - n.prefixLen)), k.testBit (127 - n.prefixLen)) := by
  unfold InnerNode.walkDown
  rw [critBitMask_ok hp, ok_bind, and_mask]

/-- The descent of `insert_leaf`. -/
theorem insertWalk_spec (s : Slab C) (k : Nat) (hk : k < 2 ^ 128) (t : Tree C) :
    ∀ (c : Ctx C) (fuel : Nat), (plug c t).Mem s.leafNodes s.innerNodes s.callbackInfos →
      (plug c t).Wf → Fits c k → t.depth < fuel →
      (∃ c' e, plug c t = plug c' (.leaf e) ∧ e.key = k ∧ Fits c' k ∧
        s.insertWalk k fuel t.handle (parent c) = .ok (.clobber e.slot)) ∨
      (∃ c' u sh, plug c t = plug c' u ∧ Fits c' k ∧ sh < 128 ∧
        (∀ e ∈ u.ents, Agree sh e.key k ∧ e.key.testBit (127 - sh) = !k.testBit (127 - sh)) ∧
        s.insertWalk k fuel t.handle (parent c) = .ok (.split u.handle (parent c') sh)) := by
  induction t with
  | leaf e =>
    intro c fuel hm hw hf hfu
    obtain ⟨hmc, hml⟩ := (mem_plug c _).1 hm
    obtain ⟨hwc, hwl, hfe⟩ := (wf_plug c _).1 hw
    cases fuel with
    | zero => simp at hfu
    | succ fuel =>
      unfold Slab.insertWalk
      rw [hml.handle_leaf]
      simp only [Bool.false_eq_true, if_false]
      rw [show (Tree.leaf e).handle = e.slot from rfl, idx_eq hml.2.1, ok_bind]
      by_cases hek : e.key = k
      · left
        exact ⟨c, e, rfl, hek, hf, by simp [hek]⟩
      · right
        have hek128 : e.key < 2 ^ 128 := hwl
        refine ⟨c, .leaf e, leadingZeros (e.key ^^^ k), rfl, hf, lz_lt hek, ?_, ?_⟩
        · intro e' he'
          simp only [Tree.ents, List.mem_singleton] at he'
          subst he'
          refine ⟨(lz_ge_iff hek128 hk (lz_lt hek).le).1 le_rfl, ?_⟩
          have := lz_bit hek128 hk hek
          revert this
          cases e'.key.testBit (127 - leadingZeros (e'.key ^^^ k)) <;>
            cases k.testBit (127 - leadingZeros (e'.key ^^^ k)) <;> simp
        · simp [hek, Tree.handle]
  | node i nk p l r ihl ihr =>
    intro c fuel hm hw hf hfu
    obtain ⟨hmc, hmn⟩ := (mem_plug c _).1 hm
    obtain ⟨hwc, hwn, hfe⟩ := (wf_plug c _).1 hw
    cases fuel with
    | zero => simp at hfu
    | succ fuel =>
      obtain ⟨hi31, hin, hml, hmr⟩ := hmn
      obtain ⟨hp, hnk, hpl, hpr, hwl, hwr⟩ := hwn
      unfold Slab.insertWalk
      rw [show (Tree.node i nk p l r).handle = notU32 i from rfl, isInner_not hi31]
      simp only [if_true]
      rw [notU32_notU32 (by omega), idx_eq hin, ok_bind]
      simp only
      have hpmod : p % U32 = p := Nat.mod_eq_of_lt (by unfold U32; omega)
      rw [hpmod]
      simp only [Tree.depth] at hfu
      by_cases hge : leadingZeros (nk ^^^ k) ≥ p
      · rw [if_pos hge, walkDown_ok hp, ok_bind]
        have hag : Agree p nk k := (lz_ge_iff hnk hk hp.le).1 hge
        simp only
        cases hb : k.testBit (127 - p)
        · let f : Frame C := ⟨i, nk, p, false, r⟩
          have hpl' : plug c (.node i nk p l r) = plug (f :: c) l := by
            simp [plug, Frame.fill, f]
          have hfit : Fits (f :: c) k := by
            intro g hg
            rcases List.mem_cons.1 hg with rfl | hg
            · exact ⟨hag.symm, hb⟩
            · exact hf g hg
          have := ihl (f :: c) fuel (hpl' ▸ hm) (hpl' ▸ hw) hfit (by omega)
          rw [hpl']
          simpa [InnerNode.child, parent, f] using this
        · let f : Frame C := ⟨i, nk, p, true, l⟩
          have hpl' : plug c (.node i nk p l r) = plug (f :: c) r := by
            simp [plug, Frame.fill, f]
          have hfit : Fits (f :: c) k := by
            intro g hg
            rcases List.mem_cons.1 hg with rfl | hg
            · exact ⟨hag.symm, hb⟩
            · exact hf g hg
          have := ihr (f :: c) fuel (hpl' ▸ hm) (hpl' ▸ hw) hfit (by omega)
          rw [hpl']
          simpa [InnerNode.child, parent, f] using this
      · right
        rw [if_neg hge]
        have hne : nk ≠ k := by
          rintro rfl
          apply hge
          exact (lz_ge_iff hnk hk hp.le).2 (Agree.refl _ _)
        have hsh := lz_lt hne
        refine ⟨c, .node i nk p l r, leadingZeros (nk ^^^ k), rfl, hf, hsh, ?_, rfl⟩
        have hall : ∀ e ∈ (Tree.node i nk p l r).ents, Agree p e.key nk := by
          intro e he
          simp only [Tree.ents, List.mem_append] at he
          rcases he with he | he
          · exact (hpl e he).1
          · exact (hpr e he).1
        intro e he
        have ha := hall e he
        refine ⟨(ha.mono (by omega)).trans ((lz_ge_iff hnk hk hsh.le).1 le_rfl), ?_⟩
        rw [ha _ (by omega)]
        have := lz_bit hnk hk hne
        revert this
        cases nk.testBit (127 - leadingZeros (nk ^^^ k)) <;>
          cases k.testBit (127 - leadingZeros (nk ^^^ k)) <;> simp

/-- A slot list with a new entry in the middle. -/
theorem map_slot_insert_perm (L R : List (Entry C)) (e : Entry C) :
    ((L ++ e :: R).map Entry.slot).Perm (e.slot :: (L ++ R).map Entry.slot) := by
  simp only [List.map_append, List.map_cons]
  exact List.perm_middle

/-- `insert_leaf` of a new key into a slab with room. -/
theorem RepT.insert_new {s : Slab C} {ot : Option (Tree C)} (hr : RepT s ot) {key qty : Nat}
    (hk : key < 2 ^ 128) (hnew : ∀ e ∈ oents ot, e.key ≠ key)
    (hroom : (oents ot).length < s.leafNodes.length) :
    ∃ a s' t' c L R, s.insertLeaf ⟨key, qty⟩ = .ok ((a, none), s') ∧ RepT s' (some t') ∧
      t'.ents = L ++ ⟨a, key, qty, c⟩ :: R ∧ oents ot = L ++ R ∧
      (∀ e ∈ L, e.key < key) ∧ (∀ e ∈ R, key < e.key) ∧ SameSize s s' := by
  have hused : ((oents ot).map Entry.slot).length < s.leafNodes.length := by simpa using hroom
  obtain ⟨a, hd, hal, hanu, halt, hla, hd1, hd2, hd3, hd4, hd5⟩ :=
    allocateLeaf_ok hr.leafAlloc hr.cap hused
  have hacb : a < s.callbackInfos.length := lt_of_lt_of_le halt hr.cbs
  obtain ⟨cb, hcb⟩ : ∃ cb, s.callbackInfos[a]? = some cb :=
    ⟨s.callbackInfos[a], List.getElem?_eq_getElem hacb⟩
  have hcnt := hr.ents_le
  have hcap := hr.cap
  have hlens := hr.lens
  have ha31 : a < 2 ^ 31 := by omega
  unfold Slab.insertLeaf
  cases ot with
  | none =>
    have h0 : s.header.leafCount = 0 := hr.count_zero.2 rfl
    rw [if_pos h0, hal]
    simp only [Slab.mapIoSlabFull, ok_bind]
    rw [setIdx_eq halt, ok_bind, addU32_ok (by rw [hd5, h0]; norm_num), ok_bind]
    refine ⟨a, _, .leaf ⟨a, key, qty, cb⟩, cb, [], [], rfl, ?_, rfl, rfl, by simp, by simp, ?_⟩
    · constructor
      · intro t ht
        cases ht
        refine ⟨rfl, ⟨ha31, ?_, hcb⟩, hk⟩
        simp [halt]
      · simp [oents, Tree.ents, hd5, h0]
      · simp only [oents, Tree.ents, List.map_cons, List.map_nil]
        refine (hla.congr (by simp) ?_)
        intro i hi
        simp only [oents, List.map_nil, List.mem_singleton] at hi
        rw [List.getElem?_set_ne (fun h => hi h.symm)]
      · simpa [oinners, Tree.inners, hd1, hd2, hd3] using hr.innerAlloc
      · simpa using hr.lens
      · simpa using hr.cbs
      · simpa using hr.cap
    · simp [SameSize]
  | some t =>
    have h0 : s.header.leafCount ≠ 0 := by rw [Ne, hr.count_zero]; simp
    have hiu : t.inners.length < s.innerNodes.length := by
      have := t.ents_length
      simp [oents] at hroom
      omega
    rw [if_neg h0, hr.root_eq]
    have hcount : s.header.leafCount = t.ents.length := hr.count
    have hentl := t.ents_length
    have hdl := t.depth_le_inners
    rcases insertWalk_spec s key hk t [] (s.innerNodes.length + 1) hr.mem hr.wf
        (by intro f hf; simp at hf) (by omega) with
      ⟨c', e, hpl, hek, _, _⟩ | ⟨c', u, sh, hpl, hfit, hsh, hag, hwalk⟩
    · exfalso
      simp only [plug] at hpl
      apply hnew e _ hek
      simp [oents, hpl, plug_ents, Tree.ents]
    · simp only [plug] at hpl
      simp only [parent, List.head?_nil, Option.map_none] at hwalk
      rw [hwalk, ok_bind]
      simp only
      rw [critBitMask_ok hsh, ok_bind, mask_and, hal]
      simp only [Slab.mapIoSlabFull, ok_bind]
      rw [setIdx_eq halt, ok_bind]
      -- inner allocation
      have hia : Alloc innerNext s.innerNodes hd.innerNodeFreeListLen hd.innerNodeFreeListHead
          hd.innerNodeBumpIndex t.inners := by
        rw [hd1, hd2, hd3]; exact hr.innerAlloc
      obtain ⟨b, hd', hbl, hbnu, hblt, hlb, he1, he2, he3, he4, he5⟩ :=
        allocateInner_ok (s := { s with header := hd, leafNodes := s.leafNodes.set a ⟨key, qty⟩ })
          hia (by simp; omega) hiu
      simp only at hblt hlb he1 he2 he3 he4 he5
      rw [hbl]
      simp only [Slab.unwrapIo, ok_bind]
      have hb31 : b < 2 ^ 31 := by omega
      rw [notU32_notU32 (by omega), idx_eq (List.getElem?_eq_getElem hblt), ok_bind,
        setIdx_eq hblt, ok_bind]
      -- the new tree
      let fr : Frame C := ⟨b, key, sh, key.testBit (127 - sh), u⟩
      have hnode : ∀ n : InnerNode, InnerNode.setChild (InnerNode.setChild
          { n with prefixLen := sh, key := key } (key.testBit (127 - sh)) a)
          (!key.testBit (127 - sh)) u.handle = fr.inode a := by
        intro n
        simp only [Frame.inode, InnerNode.setChild, fr]
        cases key.testBit (127 - sh) <;> simp
      rw [hnode]
      have hmem := hr.mem
      rw [hpl] at hmem
      obtain ⟨hmc, hmu⟩ := (mem_plug c' u).1 hmem
      have hwf := hr.wf
      rw [hpl] at hwf
      obtain ⟨hwc, hwu, hfu⟩ := (wf_plug c' u).1 hwf
      have hent : t.ents = lefts c' ++ u.ents ++ rights c' := by rw [hpl, plug_ents]
      have hinn : t.inners.Perm (u.inners ++ inners c') := by rw [hpl]; exact plug_inners c' u
      have hnd : (u.inners ++ inners c').Nodup := hinn.nodup_iff.1 hr.innerAlloc.nodup
      have hndc : (inners c').Nodup := (List.nodup_append.1 hnd).2.1
      have hbu : b ∉ u.inners := fun h => hbnu (hinn.mem_iff.2 (List.mem_append_left _ h))
      have hbc : b ∉ inners c' := fun h => hbnu (hinn.mem_iff.2 (List.mem_append_right _ h))
      have hslot : ∀ e ∈ t.ents, e.slot ≠ a := by
        intro e he h
        apply hanu
        simp only [oents, List.mem_map]
        exact ⟨e, he, h⟩
      -- memory after writing the leaf and the new inner node
      have hmu1 : u.Mem (s.leafNodes.set a ⟨key, qty⟩) (s.innerNodes.set b (fr.inode a))
          s.callbackInfos := by
        apply hmu.congr
        · intro i hi
          simp only [Tree.leafSlots, List.mem_map] at hi
          obtain ⟨e, he, rfl⟩ := hi
          rw [List.getElem?_set_ne]
          exact (hslot e (by rw [hent]; simp [he])).symm
        · intro i hi
          rw [List.getElem?_set_ne]
          rintro rfl; exact hbu hi
        · intros; rfl
      have hmc1 : Ctx.Mem (s.leafNodes.set a ⟨key, qty⟩) (s.innerNodes.set b (fr.inode a))
          s.callbackInfos c' u.handle := by
        apply hmc.congr
        · intro e he
          rw [List.getElem?_set_ne]
          refine (hslot e ?_).symm
          rw [hent]
          simp only [List.mem_append] at he ⊢
          tauto
        · intro i hi
          rw [List.getElem?_set_ne]
          rintro rfl; exact hbc hi
        · intros; rfl
      -- finish, in both cases, from the final inner array
      have finish : ∀ (is' : List InnerNode) (root' : Nat),
          is'.length = s.innerNodes.length →
          (∀ i, i ∉ inners c' → is'[i]? = (s.innerNodes.set b (fr.inode a))[i]?) →
          Ctx.Mem (s.leafNodes.set a ⟨key, qty⟩) is' s.callbackInfos c' (notU32 b) →
          root' = top c' (notU32 b) →
          RepT { header := { hd' with rootNode := root', leafCount := hd'.leafCount + 1 },
                 leafNodes := s.leafNodes.set a ⟨key, qty⟩, innerNodes := is',
                 callbackInfos := s.callbackInfos }
            (some (plug (fr :: c') (.leaf ⟨a, key, qty, cb⟩))) ∧
          (plug (fr :: c') (Tree.leaf ⟨a, key, qty, cb⟩)).ents =
            lefts (fr :: c') ++ ⟨a, key, qty, cb⟩ :: rights (fr :: c') ∧
          t.ents = lefts (fr :: c') ++ rights (fr :: c') := by
        intro is' root' hlen' hout hmem' hroot
        have hents' : (plug (fr :: c') (Tree.leaf ⟨a, key, qty, cb⟩)).ents =
            lefts (fr :: c') ++ ⟨a, key, qty, cb⟩ :: rights (fr :: c') := by
          rw [plug_ents]; simp [Tree.ents]
        have hentold : t.ents = lefts (fr :: c') ++ rights (fr :: c') := by
          rw [hent]
          simp only [lefts, rights, fr]
          cases key.testBit (127 - sh) <;> simp
        have hinn' : (plug (fr :: c') (Tree.leaf ⟨a, key, qty, cb⟩)).inners.Perm (b :: t.inners) := by
          refine (plug_inners _ _).trans ?_
          simp only [Tree.inners, List.nil_append, inners, fr]
          exact List.Perm.cons _ hinn.symm
        refine ⟨?_, hents', hentold⟩
        constructor
        · intro t' ht'
          cases ht'
          refine ⟨?_, ?_, ?_⟩
          · rw [plug_handle]
            simp only [hroot, top]
            cases c' with
            | nil => simp [fr]
            | cons g c' =>
              rw [List.getLast?_cons_cons,
                List.getLast?_eq_some_getLast (by simp : g :: c' ≠ [])]
          · rw [mem_plug]
            refine ⟨⟨hb31, ?_, ?_, hmem'⟩, ha31, ?_, hcb⟩
            · rw [hout b hbc, List.getElem?_set_self hblt]
              rfl
            · apply hmu1.congr
              · intros; rfl
              · intro i hi
                apply hout
                intro hic
                exact (List.nodup_append.1 hnd).2.2 i hi i hic rfl
              · intros; rfl
            · simp [halt]
          · rw [wf_plug]
            refine ⟨⟨hsh, hk, hwu, ?_, hfu, hwc⟩, hk, ?_⟩
            · intro e he
              exact hag e he
            · intro e he
              simp only [Tree.ents, List.mem_singleton] at he
              subst he
              intro g hg
              rcases List.mem_cons.1 hg with rfl | hg
              · exact ⟨Agree.refl _ _, rfl⟩
              · exact hfit g hg
        · simp only [oents]
          rw [hents', he5, hd5, hcount, hentold]
          simp
          omega
        · simp only [oents, he1, he2, he3]
          have h1 : Alloc leafNext (s.leafNodes.set a ⟨key, qty⟩) hd.leafFreeListLen
              hd.leafFreeListHead hd.leafBumpIndex (a :: (oents (some t)).map Entry.slot) := by
            apply hla.congr (by simp)
            intro i hi
            rw [List.getElem?_set_ne]
            rintro rfl
            exact hi (by simp)
          apply h1.perm
          rw [hents']
          simp only [oents, hentold]
          exact map_slot_insert_perm _ _ _
        · simp only [oinners]
          have h1 : Alloc innerNext is' hd'.innerNodeFreeListLen hd'.innerNodeFreeListHead
              hd'.innerNodeBumpIndex (b :: t.inners) := by
            apply hlb.congr hlen'
            intro i hi
            simp only [List.mem_cons, not_or] at hi
            rw [hout i (fun h => hi.2 (hinn.mem_iff.2 (List.mem_append_right _ h))),
              List.getElem?_set_ne (fun h => hi.1 h.symm)]
          exact h1.perm hinn'
        · simp only [List.length_set, hlen']; exact hr.lens
        · simp only [List.length_set]; exact hr.cbs
        · simp only [List.length_set]; exact hr.cap
      have hfitc : Fits (fr :: c') key := by
        intro g hg
        rcases List.mem_cons.1 hg with rfl | hg
        · exact ⟨Agree.refl _ _, rfl⟩
        · exact hfit g hg
      have hwfc : Ctx.Wf (fr :: c') := ⟨hsh, hk, hwu, hag, hfu, hwc⟩
      have hcnt' : hd'.leafCount + 1 < 2 ^ 32 := by
        rw [he5, hd5, hcount]; simp [oents] at hcnt; omega
      cases c' with
      | nil =>
        simp only [Slab.relink, List.head?_nil, Option.map_none, ok_bind]
        rw [addU32_ok hcnt', ok_bind]
        obtain ⟨h1, h2, h3⟩ := finish (s.innerNodes.set b (fr.inode a)) (notU32 b) (by simp)
          (fun _ _ => rfl) trivial rfl
        exact ⟨a, _, _, cb, _, _, rfl, h1, h2, h3, lefts_lt hwfc hfitc, lt_rights hwfc hfitc,
          by simp [SameSize]⟩
      | cons g c'' =>
        simp only [Slab.relink, List.head?_cons, Option.map_some]
        have hg := hmc1.head_mem
        have hg31 : g.slot < 2 ^ 31 := hmc1.1
        rw [notU32_notU32 (by omega), idx_eq hg, ok_bind, setIdx_eq (lt_of_getElem? hg)]
        simp only [ok_bind]
        rw [addU32_ok hcnt', ok_bind, Frame.inode_setChild]
        obtain ⟨h1, h2, h3⟩ := finish
          ((s.innerNodes.set b (fr.inode a)).set g.slot (g.inode (notU32 b))) (hd'.rootNode) (by simp)
          (by
            intro i hi
            rw [List.getElem?_set_ne]
            rintro rfl
            exact hi (by simp [inners]))
          (hmc1.redirect hndc)
          (by
            rw [he4, hd4, hr.root_eq, hpl, plug_handle]
            simp only [top]
            rw [List.getLast?_eq_some_getLast (by simp : g :: c'' ≠ [])])
        exact ⟨a, _, _, cb, _, _, rfl, h1, h2, h3, lefts_lt hwfc hfitc, lt_rights hwfc hfitc,
          by simp [SameSize]⟩

/-- `insert_leaf` of a new key into a full slab is refused without touching it. -/
theorem RepT.insert_full {s : Slab C} {ot : Option (Tree C)} (hr : RepT s ot) {key qty : Nat}
    (hk : key < 2 ^ 128) (hnew : ∀ e ∈ oents ot, e.key ≠ key)
    (hfull : (oents ot).length = s.leafNodes.length) :
    s.insertLeaf ⟨key, qty⟩ = .error (.ao .slabOutOfSpace) := by
  have hio : s.allocateLeaf = .error .io := allocateLeaf_full hr.leafAlloc (by simpa using hfull)
  unfold Slab.insertLeaf
  cases ot with
  | none =>
    have := hr.lens
    simp [oents] at hfull
    omega
  | some t =>
    have h0 : s.header.leafCount ≠ 0 := by rw [Ne, hr.count_zero]; simp
    have := hr.inners_le
    rw [if_neg h0, hr.root_eq]
    have hdl := t.depth_le_inners
    rcases insertWalk_spec s key hk t [] (s.innerNodes.length + 1) hr.mem hr.wf
        (by intro f hf; simp at hf) (by omega) with
      ⟨c', e, hpl, hek, _, _⟩ | ⟨c', u, sh, hpl, hfit, hsh, hag, hwalk⟩
    · exfalso
      simp only [plug] at hpl
      apply hnew e _ hek
      simp [oents, hpl, plug_ents, Tree.ents]
    · simp only [parent, List.head?_nil, Option.map_none] at hwalk
      rw [hwalk, ok_bind]
      simp only
      rw [critBitMask_ok hsh, ok_bind, hio]
      rfl

/-- `insert_leaf` of an existing key overwrites that leaf and returns the old one. -/
theorem RepT.insert_clobber {s : Slab C} {ot : Option (Tree C)} (hr : RepT s ot) {key qty : Nat}
    {L R : List (Entry C)} {e : Entry C} (he : oents ot = L ++ e :: R) (hek : e.key = key) :
    ∃ s' t', s.insertLeaf ⟨key, qty⟩ = .ok ((e.slot, some ⟨key, e.qty⟩), s') ∧ RepT s' (some t') ∧
      t'.ents = L ++ ⟨e.slot, key, qty, e.cb⟩ :: R ∧ SameSize s s' := by
  cases ot with
  | none => simp [oents] at he
  | some t =>
    have hk : key < 2 ^ 128 := by
      rw [← hek]; exact hr.key_lt e (by rw [he]; simp)
    have h0 : s.header.leafCount ≠ 0 := by rw [Ne, hr.count_zero]; simp
    have := hr.inners_le
    unfold Slab.insertLeaf
    rw [if_neg h0, hr.root_eq]
    have hsorted := hr.sorted
    have hdl := t.depth_le_inners
    rcases insertWalk_spec s key hk t [] (s.innerNodes.length + 1) hr.mem hr.wf
        (by intro f hf; simp at hf) (by omega) with
      ⟨c', e', hpl, hek', hfit, hwalk⟩ | ⟨c', u, sh, hpl, hfit, hsh, hag, hwalk⟩
    · simp only [plug] at hpl
      simp only [parent, List.head?_nil, Option.map_none] at hwalk
      have hmem := hr.mem
      rw [hpl] at hmem
      obtain ⟨hmc, hml⟩ := (mem_plug c' _).1 hmem
      have hwf := hr.wf
      rw [hpl] at hwf
      obtain ⟨hwc, hwl, hfe⟩ := (wf_plug c' _).1 hwf
      have hent : t.ents = lefts c' ++ e' :: rights c' := by
        rw [hpl, plug_ents]; simp [Tree.ents]
      have hnd : (t.ents.map Entry.slot).Nodup := hr.leafAlloc.nodup
      -- the decomposition is unique
      have huniq : L = lefts c' ∧ e = e' ∧ R = rights c' := by
        simp only [oents] at he
        have heq : L ++ e :: R = lefts c' ++ e' :: rights c' := by rw [← he, hent]
        have hL : ∀ x ∈ L, x.key < key := by
          intro x hx
          simp only [oents, he] at hsorted
          rw [List.pairwise_append] at hsorted
          rw [← hek]
          exact hsorted.2.2 x hx e (by simp)
        have hL' : ∀ x ∈ lefts c', x.key < key := lefts_lt hwc hfit
        rcases List.append_eq_append_iff.1 heq with ⟨M, h1, h2⟩ | ⟨M, h1, h2⟩
        · cases M with
          | nil => simp at h1 h2; exact ⟨h1.symm, h2.1, h2.2⟩
          | cons m M =>
            simp at h2
            have := hL' e (by rw [h1]; simp [h2.1])
            omega
        · cases M with
          | nil => simp at h1 h2; exact ⟨h1, h2.1.symm, h2.2.symm⟩
          | cons m M =>
            simp at h2
            have := hL e' (by rw [h1]; simp [h2.1])
            omega
      obtain ⟨rfl, rfl, rfl⟩ := huniq
      have hlt := lt_of_getElem? hml.2.1
      rw [hwalk, ok_bind]
      simp only
      rw [idx_eq hml.2.1, ok_bind, setIdx_eq hlt, ok_bind]
      have hslots : ∀ x ∈ lefts c' ++ rights c', x.slot ≠ e.slot := by
        intro x hx h
        have := (map_slot_insert_perm (lefts c') (rights c') e).nodup_iff.1 (hent ▸ hnd)
        rw [List.nodup_cons] at this
        exact this.1 (List.mem_map.2 ⟨x, hx, h⟩)
      refine ⟨_, plug c' (.leaf ⟨e.slot, key, qty, e.cb⟩), by rw [hek], ?_, ?_, by simp [SameSize]⟩
      · have hents' : (plug c' (.leaf ⟨e.slot, key, qty, e.cb⟩)).ents =
            lefts c' ++ ⟨e.slot, key, qty, e.cb⟩ :: rights c' := by
          rw [plug_ents]; simp [Tree.ents]
        constructor
        · intro t' ht'
          cases ht'
          refine ⟨?_, ?_, ?_⟩
          · rw [plug_handle]
            simp only
            rw [hr.root_eq, hpl, plug_handle]; rfl
          · rw [mem_plug]
            refine ⟨?_, hml.1, ?_, hml.2.2⟩
            · apply hmc.congr
              · intro x hx
                rw [List.getElem?_set_ne (hslots x hx).symm]
              · intros; rfl
              · intros; rfl
            · simp [hlt]
          · rw [wf_plug]
            refine ⟨hwc, hk, ?_⟩
            intro x hx
            simp only [Tree.ents, List.mem_singleton] at hx
            subst hx
            exact hfit
        · simp only [oents, hents']
          rw [hr.count]; simp [oents, hent]
        · simp only [oents, hents']
          have : (lefts c' ++ (⟨e.slot, key, qty, e.cb⟩ : Entry C) :: rights c').map Entry.slot =
              (oents (some t)).map Entry.slot := by
            simp [oents, hent]
          rw [this]
          apply hr.leafAlloc.congr (by simp)
          intro i hi
          rw [List.getElem?_set_ne]
          rintro rfl
          apply hi
          simp [oents, hent]
        · simp only [oinners]
          apply hr.innerAlloc.perm
          have h1 := plug_inners c' (.leaf ⟨e.slot, key, qty, e.cb⟩)
          have h2 := plug_inners c' (.leaf e)
          rw [← hpl] at h2
          simp only [Tree.inners] at h1 h2
          exact h1.trans h2.symm
        · simp only [List.length_set]; exact hr.lens
        · simp only [List.length_set]; exact hr.cbs
        · simp only [List.length_set]; exact hr.cap
      · rw [plug_ents]; simp [Tree.ents]
    · exfalso
      simp only [plug] at hpl
      have hmemE : e ∈ t.ents := by simp only [oents] at he; rw [he]; simp
      have hwf := hr.wf
      rw [hpl] at hwf
      obtain ⟨hwc, hwu, hfu⟩ := (wf_plug c' u).1 hwf
      rw [hpl, plug_ents] at hmemE
      simp only [List.mem_append] at hmemE
      rcases hmemE with (h | h) | h
      · have := lefts_lt hwc hfit e h; omega
      · have := (hag e h).2
        rw [hek] at this
        simp at this
      · have := lt_rights hwc hfit e h; omega

end AOB
