import Verif.Props.BufferedStorage
import Verif.Props.Coredump

/-!
# C68: a coredump saved to a buffered storage

The writes `memfault_coredump_save` makes are of the kind the buffering layer expects, and what it leaves
in the storage is the coredump.
-/

namespace Mflt.Props

open Coredump
open Spec.Coredump (apply parse AddressesFit infoBlocks regionBlocks content Shortened)
open Spec.BufferedStorage (pieces program blocks)

/-- A write as a storage operation. -/
def writeOp (w : Nat × Bytes) : Op := .write w.1 w.2

theorem pieces_append (o : Nat) (a b : List Bytes) :
    pieces o (a ++ b) = pieces o a ++ pieces (o + a.flatten.length) b := by
  induction a generalizing o with
  | nil => rfl
  | cons d a ih =>
    simp only [List.cons_append, pieces, ih, List.flatten_cons, List.length_append, Nat.add_assoc]

/-- Nothing but writes in order between `c` and `c'`. -/
def Goes (c c' : Ctx) : Prop :=
  c'.computeOnly = c.computeOnly ∧ ∃ ds, c'.ops = c.ops ++ (pieces c.offset ds).map writeOp ∧
    c'.offset = c.offset + ds.flatten.length

theorem Goes.refl (c : Ctx) : Goes c c := ⟨rfl, [], by simp [pieces], rfl⟩

theorem Goes.trans {a b c : Ctx} (h1 : Goes a b) (h2 : Goes b c) : Goes a c := by
  obtain ⟨m1, d1, o1, f1⟩ := h1
  obtain ⟨m2, d2, o2, f2⟩ := h2
  refine ⟨m2.trans m1, d1 ++ d2, ?_, ?_⟩
  · rw [o2, o1, f1, pieces_append, List.map_append, List.append_assoc]
  · rw [f2, f1, List.flatten_append, List.length_append]; omega

theorem Goes.flag {c c' : Ctx} {b : Bool} (h : Goes { c with truncated := b } c') : Goes c c' := h

section
variable {p : Plat} (hp : ∀ i, p.answer i = true)
include hp

theorem platWrite_goes {c : Ctx} (hc : c.computeOnly = false) (d : Bytes) :
    (platWrite p c d).1 = true ∧ Goes c (platWrite p c d).2 := by
  unfold platWrite
  rw [hc, hp]
  simp only [Bool.false_eq_true, if_false, if_true]
  exact ⟨trivial, hc.symm ▸ rfl, [d], by simp [pieces, writeOp], by simp⟩

theorem writeWords_goes (ws : List Bytes) {c : Ctx} (hc : c.computeOnly = false) :
    Goes c (writeWords p c ws).2 := by
  induction ws generalizing c with
  | nil => exact Goes.refl c
  | cons w ws ih =>
    obtain ⟨h1, h2⟩ := platWrite_goes hp hc w
    unfold writeWords
    rcases hx : platWrite p c w with ⟨b, c1⟩
    rw [hx] at h1 h2
    simp only at h1 h2
    subst h1
    exact h2.trans (ih (h2.1.trans hc))

theorem putBlock_goes {c : Ctx} (hc : c.computeOnly = false) (t a : Nat) (d : Bytes) (w : Bool) :
    Goes c (putBlock p c t a d w).2 := by
  obtain ⟨h1, h2⟩ := platWrite_goes hp hc (blockHeader t a d.length)
  unfold putBlock
  rcases hx : platWrite p c (blockHeader t a d.length) with ⟨b, c1⟩
  rw [hx] at h1 h2
  simp only at h1 h2
  subst h1
  simp only
  split
  · exact h2.trans (platWrite_goes hp (h2.1.trans hc) d).2
  · have h3 := writeWords_goes hp (words d) (h2.1.trans hc)
    rcases hy : writeWords p c1 (words d) with ⟨b, c2⟩
    rw [hy] at h3
    cases b <;> exact h2.trans h3

theorem writeBlock_goes {c : Ctx} (hc : c.computeOnly = false) (t a : Nat) (d : Option Bytes) (w : Bool) :
    Goes c (writeBlock p c t a d w).2 := by
  unfold writeBlock
  split
  · exact Goes.refl c
  · split
    · exact Goes.refl c
    · split
      · exact Goes.flag (Goes.refl _)
      · rename_i x _ _ _ _
        exact Goes.flag (putBlock_goes hp (c := { c with truncated := c.truncated || tooBig c x.length })
          hc t a _ w)

theorem pad_goes {c : Ctx} (hc : c.computeOnly = false) : Goes c (pad p c) := by
  unfold pad
  split
  · exact Goes.refl c
  · exact writeBlock_goes hp hc ..

theorem writeRegions_goes (rs : List Region) {c : Ctx} (hc : c.computeOnly = false) :
    Goes c (writeRegions p c rs).2 := by
  induction rs generalizing c with
  | nil => exact Goes.refl c
  | cons r rs ih =>
    have h : Goes c (writeRegion p c r).2 := by
      obtain ⟨t, a, d, w, h, -⟩ := region_form p c r
      rw [h]
      exact (pad_goes hp hc).trans (writeBlock_goes hp ((pad_goes hp hc).1.trans hc) ..)
    unfold writeRegions
    rcases hx : writeRegion p c r with ⟨b, c1⟩
    rw [hx] at h
    cases b
    · exact h
    · exact h.trans (ih (h.1.trans hc))

theorem writeFixed_goes (bs : List (Nat × Option Bytes)) {c : Ctx} (hc : c.computeOnly = false) :
    Goes c (writeFixed p c bs).2 := by
  induction bs generalizing c with
  | nil => exact Goes.refl c
  | cons b bs ih =>
    have h := writeBlock_goes hp hc b.1 0 b.2 false
    unfold writeFixed
    rcases hx : writeBlock p c b.1 0 b.2 false with ⟨r, c1⟩
    rw [hx] at h
    cases r
    · exact h
    · exact h.trans (ih (h.1.trans hc))

/-- A successful save: writes in order behind the header, then the header. -/
theorem save_pieces {mem : Bytes} {info : SaveInfo} {n : Nat} (h : (save p mem info).1 = some n) :
    ∃ ds, n = 12 + ds.flatten.length ∧
      (save p mem info).2 = .erase mem.length :: (pieces 12 ds ++ [(0, header n)]).map writeOp := by
  obtain ⟨-, hs⟩ := save_some h
  rw [hs] at h ⊢
  simp only at h ⊢
  have g1 := writeFixed_goes hp (fixedBlocks info) (c := firstCtx false mem.length [.erase mem.length]) rfl
  revert h
  unfold writeSections
  rcases hx : writeFixed p (firstCtx false mem.length [.erase mem.length]) (fixedBlocks info) with ⟨r, c1⟩
  rw [hx] at g1
  cases r with
  | false => intro h; cases h
  | true =>
    simp only
    have g2 := writeRegions_goes hp (info.archRegions ++ info.sdkRegions ++ info.regions) (c := c1) g1.1
    rw [← writeAllRegions_eq] at g2
    rcases hy : writeAllRegions p c1 info with ⟨r, c2⟩
    rw [hy] at g2
    simp only
    split
    · intro h; cases h
    · have hc2 : c2.computeOnly = false := g2.1.trans g1.1
      obtain ⟨k1, k2⟩ := platWrite_goes hp hc2 (footer c2.truncated)
      unfold writeEnd
      rcases hz : platWrite p c2 (footer c2.truncated) with ⟨r, c3⟩
      rw [hz] at k1 k2
      simp only at k1 k2
      subst k1
      simp only
      obtain ⟨hm, ds, ho, hf⟩ := (g1.trans g2).trans k2
      have hc3 : c3.computeOnly = false := hm
      unfold platWrite
      rw [hc3, hp]
      simp only [Bool.false_eq_true, if_false, if_true]
      intro h
      injection h with h
      refine ⟨ds, ?_, ?_⟩
      · rw [← h, hf]; rfl
      · rw [ho, h]
        simp only [firstCtx, List.map_append, List.map_cons, List.map_nil, writeOp, List.cons_append,
          List.nil_append]

end

/-- Writes in order fill the storage in order. -/
theorem apply_pieces {e : UInt8} (ds : List Bytes) (mem : Bytes) (o : Nat)
    (h : o + ds.flatten.length ≤ mem.length) :
    ((pieces o ds).map writeOp).foldl (apply e) mem =
      mem.take o ++ ds.flatten ++ mem.drop (o + ds.flatten.length) := by
  induction ds generalizing mem o with
  | nil => simp [pieces]
  | cons d ds ih =>
    simp only [List.flatten_cons, List.length_append] at h
    simp only [pieces, List.map_cons, List.foldl_cons, List.flatten_cons, List.length_append]
    have hl : (mem.take o ++ d).length = o + d.length := by
      rw [List.length_append, List.length_take]; omega
    have ha : apply e mem (writeOp (o, d)) = mem.take o ++ d ++ mem.drop (o + d.length) := rfl
    rw [ha, ih _ _ (by
      rw [List.length_append, hl, List.length_drop]; omega)]
    have hd : (mem.take o ++ d ++ mem.drop (o + d.length)).drop (o + d.length + ds.flatten.length) =
        mem.drop (o + (d.length + ds.flatten.length)) := by
      rw [List.drop_append, hl, List.drop_eq_nil_of_le (by omega), List.nil_append, List.drop_drop]
      congr 1; omega
    rw [hd, ← hl, List.take_left]
    simp only [List.append_assoc]

/-- The header written over the first bytes. -/
theorem header_over {e : UInt8} {hdr : Bytes} {n : Nat} (mem data : Bytes) (hh : hdr.length = 12)
    (hn : (hdr ++ data).length = n) (hm : 12 ≤ mem.length) :
    (([(0, hdr)].map writeOp).foldl (apply e)
      (mem.take 12 ++ data ++ mem.drop (12 + data.length))).take n = hdr ++ data := by
  have h1 : ([(0, hdr)].map writeOp).foldl (apply e) (mem.take 12 ++ data ++ mem.drop (12 + data.length)) =
      hdr ++ (mem.take 12 ++ data ++ mem.drop (12 + data.length)).drop 12 := by
    show List.take 0 _ ++ hdr ++ List.drop (0 + hdr.length) _ = _
    rw [hh, List.take_zero, List.nil_append, Nat.zero_add]
  have h2 : (mem.take 12).length = 12 := by rw [List.length_take]; omega
  rw [h1, List.append_assoc (mem.take 12), List.drop_left' h2, ← List.append_assoc, List.take_left' hn]

/-- **C68 (coredump).** Let a save succeed on a storage that does what it is asked to. The same save on a
storage of the same size, erased, that can only be written in blocks, through the buffering layer: every
write succeeds, the blocks are those of the coredump, and what can be read back is the same coredump. The
blocks must not be shorter than the header nor longer than the coredump. -/
theorem C68_coredump {e : UInt8} {mem : Bytes} {p : Plat} {info : SaveInfo} {n W : Nat}
    (hp : ∀ i, p.answer i = true) (hlen : mem.length < 2 ^ 32) (hok : AddressesFit info)
    (hW : 12 ≤ W) (hs1 : mem.length % W = 0) (hn : W ≤ n) (h : (save p mem info).1 = some n) :
    ∃ ws s dump, (save p mem info).2 = .erase mem.length :: ws.map (fun w => .write w.1 w.2) ∧
      BufferedStorage.writes W mem.length (fun _ _ => true) (BufferedStorage.init W) ws = some (true, s) ∧
      dump.length = n ∧ s.log = blocks W dump ∧
      ∃ d, parse (s.log.foldl program (List.replicate mem.length e)) = some d ∧
        parse ((save p mem info).2.foldl (apply e) mem) = some d ∧ d.totalSize = n ∧
        ∃ got, content d.blocks = infoBlocks info ++ got ∧
          (got = regionBlocks info ∨ (d.truncated = true ∧ Shortened (regionBlocks info) got)) := by
  obtain ⟨ds, hds, hops⟩ := save_pieces hp h
  obtain ⟨d, hd1, hd2, hd3, hd4⟩ := C42_parses_partial (e := e) hp hlen hok h
  have hh : (header n).length = 12 := rfl
  have hdl : (header n ++ ds.flatten).length = n := by rw [List.length_append, hh, hds]
  have hWn : W ≤ mem.length := by omega
  obtain ⟨r, s, e1, e2, -, e4⟩ := C68_buffered_write_partial (W := W) (size := mem.length)
    (port := fun _ _ => true) (hdr := header n) (ds := ds) (by rw [hh]; omega) (by rw [hh]; omega) hs1 hWn
    hlen (by rw [hdl]; exact hd3) (by rw [hdl]; exact hn)
  have hr := e4 (fun _ _ => rfl)
  subst hr
  have hlog : s.log = blocks W (header n ++ ds.flatten) := by rw [e2 rfl]
  refine ⟨pieces 12 ds ++ [(0, header n)], s, header n ++ ds.flatten, hops, e1, hdl, hlog, d, ?_, hd1, hd2, hd4⟩
  -- the first `n` bytes are the same
  have hrl : (List.replicate mem.length e).length = mem.length := List.length_replicate
  obtain ⟨m1, -⟩ := C68_memory (W := W) (dump := header n ++ ds.flatten) (mem := List.replicate mem.length e)
    (by omega) (by rw [hrl]; exact hs1) (by rw [hrl]; exact hWn) (by rw [hrl, hdl]; exact hd3)
  rw [hdl, ← hlog] at m1
  have m2 : ((save p mem info).2.foldl (apply e) mem).take n = header n ++ ds.flatten := by
    have hz : apply e mem (.erase mem.length) = List.replicate mem.length e := by
      simp [apply]
    rw [hops, List.foldl_cons, hz, List.map_append, List.foldl_append,
      apply_pieces ds _ 12 (by rw [hrl, ← hds]; exact hd3)]
    exact header_over _ _ hh hdl (by rw [hrl]; omega)
  obtain ⟨h12, hs⟩ := save_some h
  rw [hs] at h m2 hd1
  simp only at h m2 hd1
  rcases writeSections_at (e := e) hp h12 hok with ⟨h1, -⟩ | ⟨-, -, new, ht, hfit, h1, hout, hmem⟩
  · rw [h1] at h; cases h
  · rw [h1] at h
    injection h with h
    have htame : ∀ b ∈ infoBlocks info ++ new, Tame b := by
      intro b hb
      rcases List.mem_append.mp hb with hb | hb
      · exact tame_infoBlocks info b hb
      · exact ht b hb
    rw [hmem] at m2 hd1
    rw [parse_image _ _ htame (by omega)] at hd1
    rw [← hd1]
    have hsplit : s.log.foldl program (List.replicate mem.length e) =
        (header n ++ ds.flatten) ++ (s.log.foldl program (List.replicate mem.length e)).drop n := by
      rw [← m1, List.take_append_drop]
    rw [hsplit, ← m2, ← List.append_assoc (encAll _), ← List.append_assoc (header _), List.take_left' (by
      simp only [List.length_append, length_header, length_footer]; omega), List.append_assoc,
      List.append_assoc]
    exact parse_image _ _ htame (by omega)

/-- The hypotheses are met, with blocks of 16 bytes. -/
example : AddressesFit coreInfo ∧ (save coreWorks (List.replicate 160 0) coreInfo).1.any (16 ≤ ·) = true := by
  refine ⟨?_, by decide +kernel⟩
  unfold AddressesFit
  decide +kernel

end Mflt.Props
