import Verif.TsDash.MpdText
/- What a player makes of the elements of the playlist, of the names and of the codecs in it -/
namespace Verif.TsDash
open Verif Verif.TsIn Verif.Xml
open Verif.HlsRestore (dec hex dec_ne decGo decGo_mem)
open Verif.TsHls (number_dec)
open Verif.Mpd (s)

/-- What is listed -/
def timesOf (r : Rep) : List (Nat × Nat) := ((ringOf r).filter (·.duration != 0)).map fun x => (x.start, x.duration)

def reprOf (x : Ent) : Mpd.Repr := ⟨dec x.pid, codecOf x.rep, x.rep.bandwidth, 90000, s "$RepresentationID$.$Time$.mp4", s "$RepresentationID$.init.mp4", timesOf x.rep⟩

def setOf (x : ReSet) : Mpd.ASet := ⟨if x.video then s "video/mp4" else s "audio/mp4", x.ents.map reprOf⟩

def docOf (c : Conf) (start publish : Text) (sets : List ReSet) : Mpd.Doc :=
  ⟨s "dynamic", start, publish, c.minSeg / 1000, c.minSeg / 1000, 2 * (c.minSeg / 1000) + c.maxSeg / 1000 + 1, s "urn:hbbtv:dash:profile:isoff-live:2012,urn:mpeg:dash:profile:isoff-live:2011",
    (s "0", 0), sets.map setOf⟩

theorem every_map {α β : Type} (f : Node → Option β) (n : α → Node) (g : α → β) (h : ∀ x, f (n x) = some (g x)) : ∀ l : List α, Mpd.every f (l.flatMap fun y => [n y]) = some (l.map g)
  | [] => rfl
  | x :: l => by
    show (f (n x)).bind _ = _
    rw [h, Option.bind_some]
    show (Mpd.every f (l.flatMap fun y => [n y])).map _ = _
    rw [every_map f n g h l]
    rfl

theorem read_entries : ∀ l : List Seg, Mpd.every Mpd.readS (l.flatMap entryNodes) = some ((l.filter (·.duration != 0)).map fun x => (x.start, x.duration))
  | [] => rfl
  | x :: l => by
    have ih := read_entries l
    rw [List.flatMap_cons]
    by_cases h : x.duration = 0
    · simp only [entryNodes, h, if_true, List.nil_append]
      rw [ih]
      simp [h]
    · have e : Mpd.readS (.el (s "S") [(s "t", dec x.start), (s "d", dec x.duration)] []) = some (x.start, x.duration) := by
        show (TsHls.Spec.number (dec x.start)).bind _ = _
        rw [show TsHls.Spec.number (dec x.start) = some x.start from number_dec _, Option.bind_some]
        show (TsHls.Spec.number (dec x.duration)).map _ = _
        rw [show TsHls.Spec.number (dec x.duration) = some x.duration from number_dec _]
        rfl
      simp only [entryNodes, h, if_false, List.singleton_append, Mpd.every]
      rw [e, Option.bind_some, ih]
      simp [h]

theorem read_rep (x : Ent) : Mpd.readRep (repNode x) = some (reprOf x) := by
  have h1 := number_dec x.rep.bandwidth
  have h2 := read_entries (ringOf x.rep)
  show (TsHls.Spec.number (dec x.rep.bandwidth)).bind _ = _
  rw [h1, Option.bind_some]
  show (Mpd.every Mpd.readS ((ringOf x.rep).flatMap entryNodes)).map _ = _
  rw [h2]
  rfl

theorem read_set (x : ReSet) : Mpd.readSet (setNode x) = some (setOf x) := by
  show (Mpd.every Mpd.readRep (x.ents.flatMap fun y => [repNode y])).map _ = _
  rw [every_map _ _ reprOf read_rep]
  rfl

theorem seconds_dec (n : Nat) : Mpd.seconds (s "PT" ++ dec n ++ s "S") = some n := by
  unfold Mpd.seconds
  have e : TsHls.Spec.tag (s "PT") (s "PT" ++ dec n ++ s "S") = some (dec n ++ ['S']) := rfl
  rw [e, Option.bind_some]
  have e2 : (dec n ++ ['S']).reverse = 'S' :: (dec n).reverse := by simp
  rw [e2]
  show TsHls.Spec.number (dec n).reverse.reverse = _
  rw [List.reverse_reverse]
  exact number_dec n

theorem readMpd_eq (c : Conf) (start publish : Text) (sets : List ReSet) (h1 : Plain start) (h2 : Plain publish) : Mpd.readMpd (mpdText c start publish sets) = some (docOf c start publish sets) := by
  unfold Mpd.readMpd
  rw [read_mpd c start publish sets h1 h2, Option.bind_some]
  show (Mpd.seconds (s "PT" ++ dec (c.minSeg / 1000) ++ s "S")).bind _ = _
  rw [seconds_dec, Option.bind_some]
  show (Mpd.seconds (s "PT" ++ dec (c.minSeg / 1000) ++ s "S")).bind _ = _
  rw [seconds_dec, Option.bind_some]
  show (Mpd.seconds (s "PT" ++ dec (2 * (c.minSeg / 1000) + c.maxSeg / 1000 + 1) ++ s "S")).bind _ = _
  rw [seconds_dec, Option.bind_some]
  show (Mpd.every Mpd.readSet (sets.flatMap fun y => [setNode y])).map _ = _
  rw [every_map _ _ setOf read_set]
  rfl

/-! ### Names -/

theorem decGo_digits : ∀ fuel n, n < fuel → decGo fuel n = Nat.toDigits 10 n
  | 0, _, h => absurd h (by omega)
  | fuel + 1, n, h => by
    have hd : ∀ k < 10, Char.ofNat (48 + k) = Nat.digitChar k := by decide
    unfold decGo
    split
    · rename_i hn
      rw [Nat.toDigits_of_lt_base hn, hd n hn]
    · rename_i hn
      rw [Nat.toDigits_of_base_le (by decide) (by omega), decGo_digits fuel (n / 10) (by omega), hd _ (Nat.mod_lt _ (by decide))]

theorem dec_repr (n : Nat) : dec n = (toString n).toList := by
  unfold dec
  rw [decGo_digits _ _ (by omega)]
  show _ = (Nat.repr n).toList
  unfold Nat.repr
  rw [String.toList_ofList]

theorem mediaName_eq (x : Ent) (t : Nat) : Mpd.mediaName (reprOf x) t = some (segName x.pid t) := by
  unfold Mpd.mediaName segName
  rw [← dec_repr]
  show some (dec x.pid ++ '.' :: (dec t ++ ".mp4".toList)) = _
  simp

theorem initName_eq (x : Ent) : Mpd.initName (reprOf x) = some (initName x.pid) := by
  unfold Mpd.initName initName
  rfl

/-! ### Codecs -/

theorem hexByte_hex (n : Nat) (h : n < 256) : ∃ a b, hex 2 n = [a, b] ∧ Mpd.hexByte a b = some n := by
  have : ∀ n < 256, Mpd.hexByte (HlsRestore.hexDigit (n / 16 % 16)) (HlsRestore.hexDigit (n % 16)) = some n := by decide +kernel
  exact ⟨_, _, rfl, this n h⟩

theorem codec_avc {r : Rep} {a : Codec.Avc} (h : r.avc = some a) (h1 : a.profile < 256) (h2 : a.constraints < 256) (h3 : a.level < 256) :
    Mpd.readCodec (codecOf r) = some (.avc a.profile a.constraints a.level) := by
  obtain ⟨b0, b1, e1, k1⟩ := hexByte_hex _ h1
  obtain ⟨b2, b3, e2, k2⟩ := hexByte_hex _ h2
  obtain ⟨b4, b5, e3, k3⟩ := hexByte_hex _ h3
  unfold codecOf
  rw [h]
  dsimp only
  rw [e1, e2, e3]
  show (Mpd.hexByte b0 b1).bind _ = _
  rw [k1, Option.bind_some]
  show (Mpd.hexByte b2 b3).bind _ = _
  rw [k2, Option.bind_some]
  show (Mpd.hexByte b4 b5).map _ = _
  rw [k3]
  rfl

theorem codec_aac {r : Rep} {a : Codec.Aac} (h0 : r.avc = none) (h : r.aac = some a) : Mpd.readCodec (codecOf r) = some (.aac a.profile) := by
  unfold codecOf
  rw [h0, h]
  show (TsHls.Spec.number (dec a.profile)).map _ = _
  rw [number_dec]
  rfl

theorem codec_other {r : Rep} (h0 : r.avc = none) (h : r.aac = none) : Mpd.readCodec (codecOf r) = some (.mp4 r.video (oti r.type)) := by
  have ho : oti r.type < 256 := by unfold oti; repeat' split <;> try decide
  obtain ⟨a, b, e, k⟩ := hexByte_hex _ ho
  unfold codecOf
  rw [h0, h]
  dsimp only
  rw [e]
  cases r.video
  · have h1 : TsHls.Spec.tag (s "mp4a.40.") ("mp4a.".toList ++ [a, b]) = none := by
      show (if '4' = a then if '0' = b then none else none else none) = none
      split
      · split <;> rfl
      · rfl
    show (match TsHls.Spec.tag (s "mp4a.40.") ("mp4a.".toList ++ [a, b]) with
      | some r => (TsHls.Spec.number r).map Mpd.Codec.aac
      | none => (Mpd.hexByte a b).map (Mpd.Codec.mp4 false)) = _
    rw [h1]
    dsimp only
    rw [k]
    rfl
  · show (Mpd.hexByte a b).map _ = _
    rw [k]
    rfl

end Verif.TsDash
