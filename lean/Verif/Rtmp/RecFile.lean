import Verif.Rtmp.RecRun
import Verif.Rtmp.FlvParse
/- Bytes of recorded files: tags, flags, where to append. -/
namespace Verif.Rec
open Verif Verif.Flv

theorem fileTime_lt (epoch ts : Nat) : fileTime epoch ts < 2 ^ 31 := by
  unfold fileTime
  dsimp only
  split <;> omega

theorem frameBytes_tag (epoch ts type : Nat) (bufs : List Bytes) (hl : bufs.flatten.length < 2 ^ 24) :
    frameBytes epoch type ts bufs = (⟨type, fileTime epoch ts, 0, bufs.flatten⟩ : Tag).bytes := by
  have ht := fileTime_lt epoch ts
  unfold frameBytes
  generalize fileTime epoch ts = t at ht
  generalize bufs.flatten = d at hl
  have ets : ∀ i, i < 3 → UInt8.ofNat (t % 2 ^ 24 / 256 ^ i) = UInt8.ofNat (t / 256 ^ i) := by
    intro i hi
    apply UInt8.toNat_inj.1
    rw [UInt8.toNat_ofNat', UInt8.toNat_ofNat']
    match i, hi with
    | 0, _ => omega
    | 1, _ => omega
    | 2, _ => omega
  have hs : (11 + d.length) % 2 ^ 32 = 11 + d.length := Nat.mod_eq_of_lt (by omega)
  rw [hs]
  simp only [Tag.bytes, Tag.head, Tag.back, tagHeader, beEnc, byteAt, List.append_nil, List.nil_append, List.cons_append, ets 0 (by omega), ets 1 (by omega),
    ets 2 (by omega)]
  simp

theorem Tag.bytes_length (t : Tag) : t.bytes.length = 15 + t.data.length := by
  simp only [Tag.bytes, Tag.head, Tag.back, List.length_append, beEnc_length]; omega

theorem flvHeader_eq : flvHeader = fileHeader 5 9 := by decide

theorem fileHeader_length (f : UInt8) : (fileHeader f 9).length = 13 := rfl

theorem put_flags (f m : UInt8) (r : Bytes) : put (fileHeader f 9 ++ r) 4 [m] = fileHeader m 9 ++ r := by
  have h1 : fileHeader f 9 = 0x46 :: 0x4c :: 0x56 :: 1 :: f :: (beEnc 4 9 ++ beEnc 4 0) := rfl
  have h2 : fileHeader m 9 = 0x46 :: 0x4c :: 0x56 :: 1 :: m :: (beEnc 4 9 ++ beEnc 4 0) := rfl
  rw [h1, h2]
  simp [put]

theorem avMask_maskOf (n : Node) (ts : List Tag) (ha : n.audio = ts.any fun t => t.type == 8) (hv : n.video = ts.any fun t => t.type == 9) :
    avMask n = maskOf ts := by
  unfold avMask maskOf
  rw [ha, hv]
  cases ts.any (fun t => t.type == 8) <;> cases ts.any (fun t => t.type == 9) <;> decide

theorem Item.bytes_tag (epoch : Nat) (i : Item) (h : (i.tag (fileTime epoch)).data.length < 2 ^ 24) : i.bytes epoch = (i.tag (fileTime epoch)).bytes := by
  cases i with
  | aacHdr e h' => exact frameBytes_tag epoch e.ts 8 h' h
  | avcHdr e h' => exact frameBytes_tag epoch e.ts 9 h' h
  | frame e => exact frameBytes_tag epoch e.ts e.type e.bufs h

/-- Items of good messages make good tags. -/
theorem Item.tag_ok {e : Av} (he : e.Ok) {i : Item} (hi : i ∈ sources e) {time : Nat → Nat} (ht : time e.ts < 2 ^ 32) :
    (i.tag time).Ok ∧ ((i.tag time).type = 8 ∨ (i.tag time).type = 9) ∧ i.type = (i.tag time).type := by
  simp only [sources, List.mem_append, List.mem_map, Option.mem_toList, List.mem_singleton] at hi
  rcases hi with (⟨h, hh, rfl⟩ | ⟨h, hh, rfl⟩) | rfl
  · exact ⟨⟨.inl rfl, ht, (by show 0 < 2 ^ 24; omega), he.hAac h hh⟩, .inl rfl, rfl⟩
  · exact ⟨⟨.inr (.inl rfl), ht, (by show 0 < 2 ^ 24; omega), he.hAvc h hh⟩, .inr rfl, rfl⟩
  · refine ⟨⟨?_, ht, (by show 0 < 2 ^ 24; omega), he.hMax⟩, he.hType, rfl⟩
    rcases he.hType with h | h
    · exact .inl h
    · exact .inr (.inl h)

theorem drop_len (a b : Bytes) (n : Nat) (h : n = a.length) : (a ++ b).drop n = b := by subst h; simp

/-- Appending continues after the last tag, and at its time. -/
theorem appendAt_tag (r : Bytes) {t : Tag} (h : t.Ok) : appendAt (r ++ t.bytes) = ((r ++ t.bytes).length, t.ts) := by
  obtain ⟨type, ts, sid, data⟩ := t
  have h1 : ts < 2 ^ 32 := h.hTs
  have h3 : data.length < 2 ^ 24 := h.hLen
  have hb : (⟨type, ts, sid, data⟩ : Tag).bytes = beEnc 1 type ++ beEnc 3 data.length ++ beEnc 3 (ts % 2 ^ 24) ++ beEnc 1 (ts / 2 ^ 24) ++ beEnc 3 sid ++ data ++
    beEnc 4 (11 + data.length) := rfl
  have hlen : (r ++ (⟨type, ts, sid, data⟩ : Tag).bytes).length = r.length + (15 + data.length) := by rw [List.length_append, Tag.bytes_length]
  have hd : (r ++ (⟨type, ts, sid, data⟩ : Tag).bytes).drop ((r ++ (⟨type, ts, sid, data⟩ : Tag).bytes).length - 4) = beEnc 4 (11 + data.length) := by
    have : r ++ (⟨type, ts, sid, data⟩ : Tag).bytes = (r ++ (⟨type, ts, sid, data⟩ : Tag).head ++ data) ++ beEnc 4 (11 + data.length) := by
      simp [Tag.bytes, Tag.back]
    rw [hlen, this]
    apply drop_len
    simp only [Tag.head, List.length_append, beEnc_length]; omega
  have hts : be32 (beEnc 4 (11 + data.length)) = 11 + data.length := beDec_beEnc_of_lt (by omega)
  have hbuf : ((r ++ (⟨type, ts, sid, data⟩ : Tag).bytes).drop ((r ++ (⟨type, ts, sid, data⟩ : Tag).bytes).length - (11 + data.length) - 4)).take 8 =
      beEnc 1 type ++ beEnc 3 data.length ++ beEnc 3 (ts % 2 ^ 24) ++ beEnc 1 (ts / 2 ^ 24) := by
    rw [hlen, drop_len r _ _ (by omega), hb]
    obtain ⟨a, ea⟩ := enc1 type
    obtain ⟨d2, d1, d0, ed⟩ := enc3 data.length
    obtain ⟨s2, s1, s0, es⟩ := enc3 (ts % 2 ^ 24)
    obtain ⟨x, ex⟩ := enc1 (ts / 2 ^ 24)
    rw [ea, ed, es, ex]
    simp
  unfold appendAt
  simp only [hd, hts, hbuf]
  rw [if_neg (by omega), if_neg (by omega), if_neg (by omega)]
  have hl8 : (beEnc 1 type ++ beEnc 3 data.length ++ beEnc 3 (ts % 2 ^ 24) ++ beEnc 1 (ts / 2 ^ 24)).length = 8 := by simp only [List.length_append, beEnc_length]
  rw [if_neg (by omega)]
  have hm : beDec (((beEnc 1 type ++ beEnc 3 data.length ++ beEnc 3 (ts % 2 ^ 24) ++ beEnc 1 (ts / 2 ^ 24)).drop 1).take 3) = data.length := by
    rw [show beEnc 1 type ++ beEnc 3 data.length ++ beEnc 3 (ts % 2 ^ 24) ++ beEnc 1 (ts / 2 ^ 24) =
      beEnc 1 type ++ (beEnc 3 data.length ++ (beEnc 3 (ts % 2 ^ 24) ++ beEnc 1 (ts / 2 ^ 24))) by simp, drop_len _ _ _ (by rw [beEnc_length]),
      List.take_left' (beEnc_length _ _)]
    exact beDec_beEnc_of_lt (by omega)
  have ht1 : (beEnc 1 type ++ beEnc 3 data.length ++ beEnc 3 (ts % 2 ^ 24) ++ beEnc 1 (ts / 2 ^ 24)).drop 7 = beEnc 1 (ts / 2 ^ 24) :=
    drop_len _ _ _ (by simp only [List.length_append, beEnc_length])
  have ht2 : ((beEnc 1 type ++ beEnc 3 data.length ++ beEnc 3 (ts % 2 ^ 24) ++ beEnc 1 (ts / 2 ^ 24)).drop 4).take 3 = beEnc 3 (ts % 2 ^ 24) := by
    rw [show beEnc 1 type ++ beEnc 3 data.length ++ beEnc 3 (ts % 2 ^ 24) ++ beEnc 1 (ts / 2 ^ 24) =
      (beEnc 1 type ++ beEnc 3 data.length) ++ (beEnc 3 (ts % 2 ^ 24) ++ beEnc 1 (ts / 2 ^ 24)) by simp, drop_len _ _ _ (by simp only [List.length_append, beEnc_length]),
      List.take_left' (beEnc_length _ _)]
  rw [hm, ht1, ht2, if_neg (by omega), beDec_beEnc_of_lt (by omega), beDec_beEnc_of_lt (by omega)]
  have hf : ts / 2 ^ 24 * 2 ^ 24 + ts % 2 ^ 24 = ts := by omega
  rw [hf]

theorem appendAt_nil : appendAt [] = (0, 0) := rfl

theorem appendAt_header (f : UInt8) : appendAt (fileHeader f 9) = (0, 0) := by
  have : be32 ((fileHeader f 9).drop ((fileHeader f 9).length - 4)) = 0 := rfl
  have h4 : ¬ (fileHeader f 9).length < 4 := by rw [fileHeader_length]; omega
  unfold appendAt
  dsimp only
  rw [if_neg h4, if_pos (.inl this)]

end Verif.Rec
