import Verif.Props.ProgramQuantities
import Verif.Props.ObjectsWhole
import Verif.Props.QuantityReported

/-! # Sizes and bit rates of the dictionary (C161) -/

namespace Guessit
open Spec

/-- What the dictionary holds under the names of sizes and bit rates. -/
def Spec.AmountIn (O : Outside) (s : Str) (obj : Nat → PyVal) (n : Str) (x : PyVal) : Prop :=
  (n = c!"size" ∧ ∃ q, WrittenAs O sizeUnits .size s q ∧ x = obj (O.codes.quantity q)) ∨
  ((n = c!"audio_bit_rate" ∨ n = c!"video_bit_rate") ∧ ∃ q, WrittenAs O rateUnits .bitRate s q ∧ x = obj (O.codes.quantity q))

/-- C161: a size or a bit rate in the dictionary is written in the name. -/
theorem C161_guess (O : Outside) (base : RuleEnv) (hl : ∀ t, base.uni.lower t = [] ↔ t = [])
    (obj : Nat → PyVal) (hobj : ∀ q l, obj (O.codes.quantity q) ≠ .list l) (sh : Str → Except PyErr (List Str)) (pa : List Str → Except PyErr Dict)
    (int : Dict → Except PyErr PyVal) (env : Env) (st : Api Unit) (text : Str) (hs : Spec.Amounts O text) (o : OptArg) (d opts : Dict)
    (ho : optionsInForce (guessitSys O base obj sh pa int) env st o = .ok opts)
    (h : (st.guessit (guessitSys O base obj sh pa int) env (.str text) o).2 = .value (.dict d)) :
    ∀ n ∈ [c!"size", c!"audio_bit_rate", c!"video_bit_rate"], ∀ v, d.get? (.str n) = some v → ∀ x, Leaf x v → AmountIn O text obj n x := by
  intro n hn v hv x hx
  obtain ⟨text', s, ht, hr, hall⟩ := guess_values rfl ho h
  cases ht
  have hin : n ≠ c!"input_string" := by
    have : ∀ n ∈ amountNames, n ≠ c!"input_string" := by decide +kernel
    exact this n hn
  obtain ⟨m, hm, hmn, hxm⟩ := hall n v x hin hv hx
  have hmean := C161_program O base hl opts text hs s hr m hm n hn hmn
  have hsi : s.input = text := by
    obtain ⟨gs, hg, h⟩ := program_starts hr
    exact (run_input (program_natural hl hg) h).1
  rw [hsi] at hxm
  rcases hmean with ⟨h1, q, h2, h3⟩ | ⟨h1, q, h2, h3⟩
  · rw [h3] at hxm
    exact Or.inl ⟨h1, q, h2, leaf_flat (hobj q) hxm⟩
  · rw [h3] at hxm
    exact Or.inr ⟨h1, q, h2, leaf_flat (hobj q) hxm⟩

/-- C30 for the dictionary: a size or a bit rate in it, printed and parsed again, is the same quantity. -/
theorem C30_guess (O : Outside) (ht : AsciiTables (qenv O.rx O.cap O.fl)) (base : RuleEnv) (hl : ∀ t, base.uni.lower t = [] ↔ t = [])
    (obj : Nat → PyVal) (hobj : ∀ q l, obj (O.codes.quantity q) ≠ .list l) (sh : Str → Except PyErr (List Str)) (pa : List Str → Except PyErr Dict)
    (int : Dict → Except PyErr PyVal) (env : Env) (st : Api Unit) (text : Str) (hs : Spec.Amounts O text) (o : OptArg) (d opts : Dict)
    (ho : optionsInForce (guessitSys O base obj sh pa int) env st o = .ok opts)
    (h : (st.guessit (guessitSys O base obj sh pa int) env (.str text) o).2 = .value (.dict d)) :
    ∀ n ∈ [c!"size", c!"audio_bit_rate", c!"video_bit_rate"], ∀ v, d.get? (.str n) = some v → ∀ x, Leaf x v →
      ∃ cls q, x = obj (O.codes.quantity q) ∧ (PlainFloats O.fl q → fromString (qenv O.rx O.cap O.fl) cls q.text = .ok q) ∧
        (cls = .size ∨ cls = .bitRate) ∧ q.cls = cls := by
  intro n hn v hv x hx
  rcases C161_guess O base hl obj hobj sh pa int env st text hs o d opts ho h n hn v hv x hx with ⟨_, q, ⟨a, b, v', u, h1, h2, rfl⟩, h3⟩ | ⟨_, q, ⟨a, b, v', u, h1, h2, rfl⟩, h3⟩
  · have hm := (C119_size O.rx hs.usual hs.cased O.cap O.fl text hs.plain ⟨c!"size", a, b, .ok ⟨.size, v', u⟩⟩).2 ⟨rfl, h1, v', u, h2, rfl⟩
    obtain ⟨q, hq, hround⟩ := C30_size O.rx hs.usual hs.cased O.cap O.fl ht text hs.plain _ hm
    cases hq
    exact ⟨.size, _, h3, hround, Or.inl rfl, rfl⟩
  · have hm := (C119_bit_rate O.rx hs.usual O.cap hs.cap O.fl text hs.plain ⟨c!"audio_bit_rate", a, b, .ok ⟨.bitRate, v', u⟩⟩).2 ⟨rfl, h1, v', u, h2, rfl⟩
    obtain ⟨q, hq, hround⟩ := C30_bit_rate O.rx hs.usual O.cap hs.cap O.fl ht text hs.plain _ hm
    cases hq
    exact ⟨.bitRate, _, h3, hround, Or.inr rfl, rfl⟩

/-! ## Examples -/

set_option maxRecDepth 100000

/-- Two quantities have numbers of their own. -/
def weighedOutside : Outside := { asciiOutside with
  rx := latinRx 'ſ', cap := capWord, fl := textFloats
  codes := ⟨fun _ => 0, fun q => if q.text = c!"1.5GB" then 10 else if q.text = c!"128Kbps" then 11 else 12, fun _ => 2, fun n => 3 + n, fun n => 4 + n⟩ }

def textObj (k : Nat) : PyVal := .str (if k = 10 then c!"1.5GB" else if k = 11 then c!"128Kbps" else [])

def weighedSys : Sys Unit := guessitSys weighedOutside asciiBase textObj (fun _ => .ok []) (fun _ => .ok []) (fun _ => .ok .none)

theorem textObj_flat : ∀ (q : Quantity weighedOutside.fl) l, textObj (weighedOutside.codes.quantity q) ≠ .list l := by
  intro q l h
  cases h

/-- A size and a bit rate. -/
theorem weighed_call : plainItems ((Api.init : Api Unit).guessit weighedSys toyEnv (.str c!"A.2001-1.5GB-128kbps.mkv") .none).2 = some [
    (c!"title", some (.inl c!"A")), (c!"year", some (.inr 2001)), (c!"size", some (.inl c!"1.5GB")), (c!"audio_bit_rate", some (.inl c!"128Kbps")),
    (c!"container", some (.inl c!"mkv")), (c!"mimetype", some (.inl c!"video/x-matroska")), (c!"type", some (.inl c!"movie"))] := by
  decide +kernel

theorem weighed_amounts : Spec.Amounts weighedOutside c!"A.2001-1.5GB-128kbps.mkv" where
  usual := latin_usual
  cased := latinUni_cased
  cap := capWord_capitalizes
  plain := by
    show PlainCase (latinRx 'ſ') _
    unfold PlainCase
    decide +kernel

example : ∃ d opts : Dict, optionsInForce weighedSys toyEnv Api.init .none = .ok opts ∧
    ((Api.init : Api Unit).guessit weighedSys toyEnv (.str c!"A.2001-1.5GB-128kbps.mkv") .none).2 = .value (.dict d) ∧
    (∀ n ∈ [c!"size", c!"audio_bit_rate", c!"video_bit_rate"], ∀ v, d.get? (.str n) = some v → ∀ x, Leaf x v →
      AmountIn weighedOutside c!"A.2001-1.5GB-128kbps.mkv" textObj n x) ∧
    ∀ n ∈ [c!"size", c!"audio_bit_rate", c!"video_bit_rate"], ∀ v, d.get? (.str n) = some v → ∀ x, Leaf x v →
      ∃ cls q, x = textObj (weighedOutside.codes.quantity q) ∧
        (PlainFloats weighedOutside.fl q → fromString (qenv weighedOutside.rx weighedOutside.cap weighedOutside.fl) cls q.text = .ok q) ∧
        (cls = .size ∨ cls = .bitRate) ∧ q.cls = cls := by
  obtain ⟨d, hd⟩ := items_dict weighed_call
  exact ⟨d, _, rfl, hd, C161_guess weighedOutside asciiBase asciiBase_lower textObj textObj_flat _ _ _ _ _ _ weighed_amounts _ d _ rfl hd,
    C30_guess weighedOutside latin_tables asciiBase asciiBase_lower textObj textObj_flat _ _ _ _ _ _ weighed_amounts _ d _ rfl hd⟩

end Guessit
