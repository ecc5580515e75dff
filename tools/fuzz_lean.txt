import Verif.Model.Text
import Verif.Model.Decimal
import Verif.Model.JsonText
import Verif.Model.ThreeBot
import Verif.Model.Hash
import Verif.Model.Primitive
import Verif.Model.Moment
import Verif.Model.Url
import Verif.Model.Calendar
open TF TF.Hash
def showS (s : Str) : String := ",".intercalate (s.map fun c => toString c.toNat)
def showB (b : Bytes) : String := ",".intercalate (b.map fun c => toString c.toNat)
def rd (s : String) : Str := if s = "" then [] else (s.splitOn ",").map fun x => Char.ofNat x.toNat!
def rdB (s : String) : Bytes := if s = "" then [] else (s.splitOn ",").map fun x => UInt8.ofNat x.toNat!
def showO {α} (f : α → String) : Option α → String | none => "none" | some a => "some " ++ f a
def showD (d : Dec) : String := s!"{d.neg} {d.coef} {d.exp}"
def showL : DecLit → String | .fin d => showD d | .special => "special"
def rdD (s : String) : Dec := match s.splitOn " " with
  | [a,b,c] => ⟨a = "true", b.toNat!, c.toInt!⟩
  | _ => ⟨false,0,0⟩
def showLoad : Except LoadErr Json → String
  | .ok j => "ok " ++ showS j.dumps
  | .error .refused => "refused"
  | .error _ => "beyond"
def go (l : String) : String := match l.splitOn "\t" with
  | ["strip", a] => showS (strip (rd a))
  | ["upper", a] => showS (upper (rd a))
  | ["fromHex", a] => showO showB (fromHex (rd a))
  | ["toB64", a] => showS (toB64 (rdB a))
  | ["fromB64", a] => showO showB (fromB64 (rd a))
  | ["int", a] => showO toString (pyInt (rd a))
  | ["hexok", a] => toString (pyIntHexOk (rd a))
  | ["dec", a] => showO showL (parseDec (rd a))
  | ["add", a, b] => showD ((rdD a).add (rdD b))
  | ["sub", a, b] => showD ((rdD a).sub (rdD b))
  | ["mul", a, b] => showD ((rdD a).mul (rdD b))
  | ["lt", a, b] => toString ((rdD a).lt (rdD b))
  | ["eq", a, b] => toString ((rdD a).eqv (rdD b))
  | ["fmt9", a] => showS (fmt9 (rdD a))
  | ["utf8", a] => showB (utf8 (rd a))
  | ["deutf8", a] => showO showS (decodeUtf8 (rdB a))
  | ["loads", a] => showLoad (jsonLoads (rd a))
  | ["host", a] => toString (hostnameRe.matchDollar (rd a))
  | ["bot", a] => toString (botNameRe.matchDollar (rd a))
  | ["ip", a] => showO showB (parseIp (rd a))
  | ["ipstr", a] => showS (printIp (rdB a))
  | ["date", a, f] => match strptime (rd a) (rd f) with
    | .ok c => s!"some {civilSeconds c}"
    | .error _ => "none"
  | ["delta", a, u] => match deltaValue pyDelta (rd a) (String.ofList (rd u)).toNat! with
    | .ok n => toString n
    | .error .overflowError => "overflow"
    | .error _ => "refused"
  | ["td", a] => toString (truncInt (totalSeconds (String.ofList (rd a)).toInt!))
  | ["ltsec", a, k, f] => toString (truncInt (Moment.timestamp ⟨fun u => if u < 1553994000 then 3600 else if u < 1572138000 then 7200 else 3600, id⟩
      ⟨civilAt (String.ofList (rd a)).toInt!, (String.ofList (rd k)).toNat!, none, rd f = ['1']⟩))
  | ["utsec", a, k, o] => toString (truncInt (Moment.timestamp ⟨fun _ => 0, id⟩
      ⟨civilAt (String.ofList (rd a)).toInt!, (String.ofList (rd k)).toNat!, some ((String.ofList (rd o)).toInt! * 60000000), false⟩))
  | ["url", a] => match requestTarget ⟨fun _ => ['Q'], fun _ => false, fun _ => ['U']⟩ (rd a) with
    | .ok t => s!"some {showS t.type}|{showO showS t.host}|{showS t.selector}"
    | .error _ => "none"
  | ["gm", a] => showS (clockText ⟨fun _ => 0, id⟩ (String.ofList (rd a)).toInt!)
  | ["blake", a] => showB (blake2b (rdB a))
  | ["sha", a] => showB (sha256 (rdB a))
  | ["dur", a] => match durClean pySeconds (.str (rd a)) with
    | .ok n => toString n
    | .error .overflowError => "overflow"
    | .error _ => "refused"
  | ["cur", a] => match Currency.set (.str (rd a)) with
    | .ok c => "ok " ++ showD c.value
    | .error .decimalInvalidOperation => "invalid"
    | .error .nameError => "name"
    | .error _ => "type"
  | _ => "?"
partial def loop (h : IO.FS.Stream) : IO Unit := do
  let l ← h.getLine
  if l = "" then return
  IO.println (go (String.ofList (l.toList.filter (· ≠ '\n'))))
  loop h
def main : IO Unit := do loop (← IO.getStdin)
