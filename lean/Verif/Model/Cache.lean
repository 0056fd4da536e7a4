import Verif.Py.Basic

/-! # The cache: /repo/hun_law/cache.py, extractors/kozlonyok_hu_downloader.py, extractors/pdf.py lines 250-260

Only the files of the cache are modelled. A process is a sequence of small steps between which it can be killed. Only one
process runs at a time; see Model/Workers.lean for several. -/

namespace Verif

/-- The contents of a file. -/
abbrev Bytes := List UInt8

/-- An issue of the gazette: year and number. -/
abbrev Issue := Int × Int

/-- What the code does not control: the server (an issue is asked for with the last two digits of its year,
kozlonyok_hu_downloader.py:34-35), `extract_textboxes` followed by `extract_lines`, and the writing of an object as compressed
JSON (which depends on the time, because gzip writes it into the file) and its reading. -/
structure World (α : Type) where
  server : Int × Int → Bytes
  parse : Bytes → Res α
  encode : Nat → α → Bytes
  decode : Bytes → Res α

/-- The downloaded file (kozlonyok_hu_downloader.py:45); the network is assumed to answer, and always the same. -/
def World.download {α : Type} (w : World α) (issue : Issue) : Bytes := w.server (issue.1 % 100, issue.2)

/-- The files in the cache directory. -/
abbrev Store := Str → Option Bytes

/-- `open(…, 'wb')` and everything written so far. -/
def Store.put (s : Store) (path : Str) (data : Bytes) : Store := fun p => if p = path then some data else s p

/-- `cache_id` (kozlonyok_hu_downloader.py:40). -/
def pdfPath (issue : Issue) : Str := (py"MK/") ++ intStr issue.1 ++ (py"/") ++ intStr issue.2 ++ (py".pdf")

/-- The name of the file with the lines (pdf.py:252). -/
def parsedPath (issue : Issue) : Str := pdfPath issue ++ (py".parsed_v5.gz")

/-- Where a process is. -/
inductive Phase (α : Type)
  | start
  /-- In `write_bytes` (cache.py:35-38): so many bytes are in the file. -/
  | writePdf (n : Nat)
  | opened
  /-- In `write_json` (cache.py:44-46): so many bytes are in the file. -/
  | writeParsed (t : Nat) (r : α) (n : Nat)
  | done (result : Res α)

/-- A process is writing a file. -/
def Phase.writing {α : Type} : Phase α → Prop
  | .writePdf _ => True
  | .writeParsed _ _ _ => True
  | _ => False

/-- The steps of a process that reads an issue: the downloader (kozlonyok_hu_downloader.py:39-47) and `CachedPdfParser`
(pdf.py:251-260). A file exists as soon as it is opened for writing. -/
inductive Step {α : Type} (w : World α) (issue : Issue) : Phase α × Store → Phase α × Store → Prop
  | pdfThere {s data} (h : s (pdfPath issue) = some data) : Step w issue (.start, s) (.opened, s)
  | pdfOpen {s} (h : s (pdfPath issue) = none) : Step w issue (.start, s) (.writePdf 0, s.put (pdfPath issue) [])
  | pdfWrite {s n m} (h : n < m) (hm : m ≤ (w.download issue).length) :
      Step w issue (.writePdf n, s) (.writePdf m, s.put (pdfPath issue) ((w.download issue).take m))
  | pdfClose {s} : Step w issue (.writePdf (w.download issue).length, s) (.opened, s)
  | parsedThere {s data} (h : s (parsedPath issue) = some data) : Step w issue (.opened, s) (.done (w.decode data), s)
  | parseFails {s data e} (h : s (parsedPath issue) = none) (hp : s (pdfPath issue) = some data) (hr : w.parse data = .error e) :
      Step w issue (.opened, s) (.done (.error e), s)
  | parsedOpen {s data r} (t : Nat) (h : s (parsedPath issue) = none) (hp : s (pdfPath issue) = some data)
      (hr : w.parse data = .ok r) : Step w issue (.opened, s) (.writeParsed t r 0, s.put (parsedPath issue) [])
  | parsedWrite {s t r n m} (h : n < m) (hm : m ≤ (w.encode t r).length) :
      Step w issue (.writeParsed t r n, s) (.writeParsed t r m, s.put (parsedPath issue) ((w.encode t r).take m))
  | parsedClose {s t r} : Step w issue (.writeParsed t r (w.encode t r).length, s) (.done (.ok r), s)

/-- Any number of steps. -/
inductive Steps {α : Type} (w : World α) (issue : Issue) : Phase α × Store → Phase α × Store → Prop
  | refl (x) : Steps w issue x x
  | tail {x y z} (h : Steps w issue x y) (hs : Step w issue y z) : Steps w issue x z

/-- A history of processes that end with a result or are killed in a phase in which this is allowed; the results with their
issues, in order. -/
inductive History {α : Type} (w : World α) (kill : Phase α → Prop) : Store → List (Issue × Res α) → Store → Prop
  | none (s) : History w kill s [] s
  | ended {s s' s'' issue r rs} (h : Steps w issue (.start, s) (.done r, s')) (hs : History w kill s' rs s'') :
      History w kill s ((issue, r) :: rs) s''
  | killed {s s' s'' issue p rs} (h : Steps w issue (.start, s) (p, s')) (hp : kill p) (hs : History w kill s' rs s'') :
      History w kill s rs s''

end Verif
