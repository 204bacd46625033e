import Verif.Words.Canon
import Verif.PortGraph.History

/-!
# The stored words are the words of the numbers they are read as
-/

namespace Verif.Words

open Verif (Direction)
open Verif.Index Verif.PG

theorem encIx_index {b : Ix} (h : CI b) : encIx (indexOf b) = b := by
  unfold CI at h
  unfold encIx
  apply BitVec.eq_of_toNat_eq
  rw [indexOf_eq, BitVec.toNat_ofNat]
  omega

theorem index_encIx {n : Nat} (h : n < 2 ^ 31) : indexOf (encIx n) = n := (new_eq h).2

theorem encMaybe_bf {b : MaybeIx} (h : CM b) : encMaybe (bfIndex b) = b := by
  rcases h with h | h
  · rw [h, bf_none]; rfl
  · rcases maybe_cases b with ⟨h1, h2⟩ | ⟨h1, h2⟩
    · rw [h2]
      unfold bfIndex isNone at h2
      split at h2
      · rename_i hn
        rw [show b = newNone 32 by simpa using hn]
        rfl
      · cases h2
    · rw [h2]
      exact encIx_index h

theorem encMaybe_map {o : Option Ix} (h : ∀ x, o = some x → CI x) : (o.map indexOf).map encIx = o := by
  cases o with
  | none => rfl
  | some x => simp [encIx_index (h x rfl)]

theorem portMetaNew_eq {n : Nat} (h : n < maxSlots) (d : Direction) : encPort (.port n d) = .port (portMetaNew n d) := by
  unfold maxSlots at h
  have hadd : (BitVec.ofNat 32 n + 1#32) = BitVec.ofNat 32 (n + 1) := by
    apply BitVec.eq_of_toNat_eq
    simp
  cases d with
  | incoming =>
    have e : portMetaNew n .incoming = BitVec.ofNat 32 (n + 1) := by
      rw [portMetaNew, hadd, dirBit]; simp
    rw [e]; rfl
  | outgoing =>
    have e : portMetaNew n .outgoing = BitVec.ofNat 32 (n + 1) ||| msbMask 32 := by
      rw [portMetaNew, hadd, dirBit]; rfl
    have ht := setFlag_toNat 32 (by decide) (n + 1) (by omega)
    have : BitVec.ofNat 32 (n + 1 + 2 ^ 31) = portMetaNew n .outgoing := by
      apply BitVec.eq_of_toNat_eq
      rw [e, ht, BitVec.toNat_ofNat]
      omega
    rw [← this]; rfl

theorem encPort_dec {e : WPort} (h : CP e) : encPort e.dec = e := by
  cases e with
  | free => rfl
  | port x =>
    obtain ⟨n, d, hn, rfl⟩ := h
    have hr := C07_port_meta_roundtrip n d (by unfold maxSlots at hn; omega)
    simp only [WPort.dec, hr.1, hr.2, Option.getD_some]
    exact portMetaNew_eq hn d

theorem encMeta_view {m : WMeta} (h : CI m.first) : encMeta m.view = m := by
  obtain ⟨f, i, o, c⟩ := m
  simp only [WMeta.view, encMeta, WMeta.mk.injEq]
  refine ⟨encIx_index h, ?_, by simp, by simp⟩
  apply BitVec.eq_of_toNat_eq
  have := i.isLt
  rw [BitVec.toNat_ofNat, BitVec.toNat_sub]
  simp only [BitVec.toNat_ofNat]
  omega

theorem encEntry_dec {e : WEntry} (h : CE e) : encEntry e.dec = e := by
  cases e with
  | free p n => simp [WEntry.dec, encEntry, encMaybe_bf h.1, encMaybe_bf h.2]
  | node m => simp [WEntry.dec, encEntry, encMeta_view (show CI m.first from h)]

theorem map_id {α : Type} {f : α → α} {l : List α} (h : ∀ x ∈ l, f x = x) : l.map f = l :=
  (List.map_congr_left h).trans (List.map_id l)

theorem encG_dec {w : WG} (h : w.Canon) : encG w.dec = w := by
  cases w with
  | mk nm pl pm nf pf a b c =>
    simp only [encG, WG.dec, List.map_map, WG.mk.injEq, and_true]
    refine ⟨map_id fun x hx => encEntry_dec (h.1 x hx), map_id fun x hx => encMaybe_bf (h.2 x hx),
      map_id fun x hx => encPort_dec (h.3 x hx), encMaybe_bf h.4, map_id fun x hx => encMaybe_bf (h.5 x hx)⟩

theorem encLink_dec {r} (h : CLink r) : encLink (decLink r) = r := by
  cases r with
  | ok x => simp [decLink, encLink, encIx_index h.1, encIx_index h.2]
  | error e =>
    simp only [decLink, encLink]
    congr 1
    cases e with
    | alreadyLinked p => simp [WLinkError.dec, encErr, encIx_index (show CI p from h)]
    | unknownPort p => simp [WLinkError.dec, encErr, encIx_index (show CI p from h)]
    | unknownOffset n d o => simp [WLinkError.dec, encErr, encIx_index (show CI n from h)]
    | incompatibleDirections a b d =>
      have h' : CI a ∧ CI b := h
      simp [WLinkError.dec, encErr, encIx_index h'.1, encIx_index h'.2]

theorem encAnswer_dec {a : WAnswer} (h : a.Canon) : encAnswer a.dec = a := by
  cases a with
  | unit => rfl
  | node n => simp [WAnswer.dec, encAnswer, encIx_index (show CI n from h)]
  | link r => simp [WAnswer.dec, encAnswer, encLink_dec (show CLink r from h)]
  | unlink r =>
    have := encMaybe_map (o := r) h
    simp only [WAnswer.dec, encAnswer, this]
  | ports tr =>
    simp only [WAnswer.dec, encAnswer, List.map_map, WAnswer.ports.injEq]
    refine map_id fun x hx => ?_
    obtain ⟨h1, h2⟩ := (show CTr tr from h) x hx
    obtain ⟨p, op⟩ := x
    simp only [Function.comp, Prod.mk.injEq]
    refine ⟨encIx_index h1, ?_⟩
    cases op with
    | moved n => simp [WPortOp.dec, encPortOp, encIx_index (show CI n from h2)]
    | removed l =>
      simp only [WPortOp.dec, encPortOp, encMaybe_map (o := l) h2]
  | moves tr =>
    simp only [WAnswer.dec, encAnswer, List.map_map, WAnswer.moves.injEq]
    refine map_id fun x hx => ?_
    obtain ⟨h1, h2⟩ := (show CMv tr from h) x hx
    simp [Function.comp, encIx_index h1, encIx_index h2]

/-! ## One call -/

theorem node_bounds {w : WG} (hI : PG.Inv w.dec) {n : Ix} {m : WMeta} (hm : w.node? n = some m) :
    m.view.incoming + m.view.outgoing ≤ m.view.capacity ∧ m.view.first + m.view.capacity ≤ w.portMeta.length := by
  obtain ⟨own, fs, hP, hfull⟩ := hI.slots
  have := hP.bound (indexOf n) m.view (by rw [node_dec, hm]; rfl)
  rw [len_portMeta] at this
  exact ⟨this.1, this.2.1⟩

theorem call_dec {maxOff : Nat} {w : WG} (hI : PG.Inv w.dec) (hc : w.Canon) {op : PG.Op} (ha : ArgsFit op)
    (hf : Fits w.dec) {a g'} (hr : Undo.ask maxOff w.dec op = some (a, g')) (hf' : Fits g') :
    ∃ wa w', w.ask maxOff (encOp op) = some (wa, w') ∧ wa.dec = a ∧ w'.dec = g' ∧ wa.Canon ∧ w'.Canon := by
  have hl : w.portLink.length = w.portMeta.length := by rw [← len_portLink, ← len_portMeta]; exact hI.len
  have hn : w.nodeMeta.length ≤ maxSlots := by rw [← len_nodeMeta]; exact hf.1
  have hp : w.portMeta.length ≤ maxSlots := by rw [← len_portMeta]; exact hf.2
  cases op with
  | addNode i o =>
    simp only [Undo.ask] at hr
    obtain ⟨⟨n, g⟩, h1, h2⟩ := Option.map_eq_some_iff.1 hr
    cases h2
    have hd := addNode_dec maxOff w hl hn hp h1 hf'.1
    rw [h1] at hd
    obtain ⟨⟨wn, w'⟩, h3, h4⟩ := Option.map_eq_some_iff.1 hd.symm
    cases h4
    obtain ⟨c1, c2⟩ := addNode_canon hc hn hp h3 (by rw [← len_nodeMeta]; exact hf'.1)
    exact ⟨.node wn, w', by simp [WG.ask, encOp, h3], rfl, rfl, c2, c1⟩
  | removeNode n =>
    simp only [Undo.ask] at hr
    obtain ⟨g, h1, h2⟩ := Option.map_eq_some_iff.1 hr
    cases h2
    have hd := removeNode_dec w (node := encIx n) hl hn hp
    rw [index_encIx ha, h1] at hd
    obtain ⟨w', h3, h4⟩ := Option.map_eq_some_iff.1 hd.symm
    exact ⟨.unit, w', by simp [WG.ask, encOp, h3], rfl, h4, trivial, removeNode_canon hc (.new ha) h3⟩
  | linkPorts a b =>
    simp only [Undo.ask] at hr
    obtain ⟨⟨r, g⟩, h1, h2⟩ := Option.map_eq_some_iff.1 hr
    cases h2
    have hd := linkPorts_dec w (encIx a) (encIx b) hp
    rw [index_encIx ha.1, index_encIx ha.2, h1] at hd
    obtain ⟨⟨wr, w'⟩, h3, h4⟩ := Option.map_eq_some_iff.1 hd.symm
    cases h4
    obtain ⟨c1, c2⟩ := linkPorts_canon hc (.new ha.1) (.new ha.2) h3
    exact ⟨.link wr, w', by simp [WG.ask, encOp, h3], rfl, rfl, c2, c1⟩
  | unlinkPort p =>
    simp only [Undo.ask] at hr
    obtain ⟨⟨r, g⟩, h1, h2⟩ := Option.map_eq_some_iff.1 hr
    cases h2
    have hd := unlinkPort_dec w (encIx p)
    rw [index_encIx ha, h1] at hd
    obtain ⟨⟨wr, w'⟩, h3, h4⟩ := Option.map_eq_some_iff.1 hd.symm
    cases h4
    obtain ⟨c1, c2⟩ := unlinkPort_canon hc h3
    exact ⟨.unlink wr, w', by simp [WG.ask, encOp, h3], rfl, rfl, c2, c1⟩
  | setNumPorts n i o =>
    simp only [Undo.ask] at hr
    obtain ⟨⟨g, tr⟩, h1, h2⟩ := Option.map_eq_some_iff.1 hr
    cases h2
    have hb := fun m (hm : w.node? (encIx n) = some m) => node_bounds hI hm
    have hd := setNumPorts_dec w (node := encIx n) hl hn hp hb (by rw [index_encIx ha]; exact h1) hf'.2
    rw [index_encIx ha, h1] at hd
    obtain ⟨⟨w', wtr⟩, h3, h4⟩ := Option.map_eq_some_iff.1 hd.symm
    cases h4
    obtain ⟨c1, c2⟩ := setNumPorts_canon hc hn hp hb h3 (by rw [← len_portMeta]; exact hf'.2)
    exact ⟨.ports wtr, w', by simp [WG.ask, encOp, h3], rfl, rfl, c2, c1⟩
  | compactNodes =>
    simp only [Undo.ask] at hr
    obtain ⟨⟨g, tr⟩, h1, h2⟩ := Option.map_eq_some_iff.1 hr
    cases h2
    have hd := compactNodes_dec w hn
    rw [h1] at hd
    obtain ⟨⟨w', wtr⟩, h3, h4⟩ := Option.map_eq_some_iff.1 hd.symm
    cases h4
    obtain ⟨c1, c2⟩ := compactNodes_canon hc hn h3
    exact ⟨.moves wtr, w', by simp [WG.ask, encOp, h3], rfl, rfl, c2, c1⟩
  | compactPorts =>
    simp only [Undo.ask] at hr
    obtain ⟨⟨g, tr⟩, h1, h2⟩ := Option.map_eq_some_iff.1 hr
    cases h2
    have hd := compactPorts_dec w hl hp (fun m hm => hc.1 _ hm) (fun x hx => by
      obtain ⟨n, d, hn', rfl⟩ := hc.3 _ hx
      rw [(C07_port_meta_roundtrip n d (by unfold maxSlots at hn'; omega)).1]
      rfl)
    rw [h1] at hd
    obtain ⟨⟨w', wtr⟩, h3, h4⟩ := Option.map_eq_some_iff.1 hd.symm
    cases h4
    obtain ⟨c1, c2⟩ := compactPorts_canon hc hl hp h3
    exact ⟨.moves wtr, w', by simp [WG.ask, encOp, h3], rfl, rfl, c2, c1⟩
  | swapNodes a b =>
    simp only [Undo.ask] at hr
    obtain ⟨g, h1, h2⟩ := Option.map_eq_some_iff.1 hr
    cases h2
    have hd := swapNodes_dec w (a := encIx a) (b := encIx b) hn
    rw [index_encIx ha.1, index_encIx ha.2, h1] at hd
    obtain ⟨w', h3, h4⟩ := Option.map_eq_some_iff.1 hd.symm
    exact ⟨.unit, w', by simp [WG.ask, encOp, h3], rfl, h4, trivial, swapNodes_canon hc (.new ha.1) (.new ha.2) hn h3⟩
  | clear =>
    simp only [Undo.ask] at hr
    cases hr
    exact ⟨.unit, w.clear, rfl, rfl, by simp [WG.dec, WG.clear, PG.clear, bf_none], trivial, .clear w⟩

theorem call_enc {maxOff : Nat} {w : WG} (hI : PG.Inv w.dec) (hc : w.Canon) {op : PG.Op} (ha : ArgsFit op)
    (hf : Fits w.dec) {a g'} (hr : Undo.ask maxOff w.dec op = some (a, g')) (hf' : Fits g') :
    w.ask maxOff (encOp op) = some (encAnswer a, encG g') ∧ (encG g').Canon ∧ (encG g').dec = g' := by
  obtain ⟨wa, w', h1, rfl, rfl, h4, h5⟩ := call_dec hI hc ha hf hr hf'
  rw [encG_dec h5, encAnswer_dec h4]
  exact ⟨h1, h5, rfl⟩

theorem ask_step (maxOff : Nat) (g : PG) (op : PG.Op) : (Undo.ask maxOff g op).map Prod.snd = g.step maxOff op := by
  cases op <;> simp [Undo.ask, PG.step, Option.map_map, Function.comp_def]

end Verif.Words
