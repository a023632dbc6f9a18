/-
Specification notions for the web server: occurrences, path components, extensions and content types.
-/
namespace Verif.WebSpec

/-- `pat` occurs in `s`. -/
def Occurs (pat s : List UInt8) : Prop := ∃ a b, s = a ++ (pat ++ b)

/-- The components of a path: the pieces between slashes. -/
def comps : List UInt8 → List (List UInt8)
  | [] => [[]]
  | b :: r =>
    if b = 47 then [] :: comps r
    else match comps r with
      | [] => [[b]]
      | c :: cs => (b :: c) :: cs

/-- ASCII bytes of a string. -/
def ascii (s : String) : List UInt8 := s.toUTF8.toList

/-- The documented table from extensions to content types. -/
def table : List (String × String) :=
  [("html", "text/html"), ("htm", "text/html"), ("js", "application/x-javascript"), ("json", "application/json"),
   ("css", "text/css"), ("txt", "text/plain"), ("png", "image/png"), ("jpg", "image/jpeg"), ("jpeg", "image/jpeg"),
   ("gif", "image/gif"), ("ico", "image/x-icon"), ("mp3", "audio/mpeg"), ("m3u8", "application/x-mpegURL"),
   ("ts", "video/MP2T")]

/-- `t` is the content type of a file called `f`: the table entry of the text behind its last dot, text/plain without one. -/
def ContentType (f t : List UInt8) : Prop :=
  (∃ b e, f = b ++ (46 :: e) ∧ 46 ∉ e ∧
    ((∃ x ∈ table, e = ascii x.1 ∧ t = ascii x.2) ∨ ((∀ x ∈ table, e ≠ ascii x.1) ∧ t = ascii "text/plain"))) ∨
  (46 ∉ f ∧ t = ascii "text/plain")

/-- `c` is the whole text of a path `p`, `f` its last component. -/
def LastComp (p f : List UInt8) : Prop := 47 ∉ f ∧ (p = f ∨ ∃ d, p = d ++ (47 :: f))

end Verif.WebSpec
