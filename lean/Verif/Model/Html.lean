import Verif.Model.Page

/-!
# The HTML export

Models `include/sharg/detail/format_html.hpp`.
-/

namespace Sharg

/-- State while printing: what was written to `std::cout`, and the members `is_dl`, `is_p` (format_html.hpp lines
242-245). -/
structure HtmlState where
  out : Str
  isDl : Bool
  isP : Bool
  deriving DecidableEq, Repr

abbrev HtmlM := M HtmlState Unit

/-- `std::cout << s`. -/
def htmlEmit (s : Str) : HtmlM := M.modify fun h => { h with out := h.out ++ s }

/-- `std::cout << to_html(s)`. -/
def htmlText (ndebug : Bool) (s : Str) : HtmlM :=
  match toHtml ndebug s with
  | .ok t => htmlEmit t
  | .error e => M.throw e

/-- `maybe_close_list`, format_html.hpp lines 57-64. -/
def maybeCloseList : HtmlM :=
  M.modify fun h => { h with out := h.out ++ (if h.isDl then "</dl>\n".toList else []), isDl := false }

/-- `maybe_close_paragraph`, format_html.hpp lines 67-74. -/
def maybeCloseParagraph : HtmlM :=
  M.modify fun h => { h with out := h.out ++ (if h.isP then "</p>\n".toList else []), isP := false }

/-- The first line of the page, format_html.hpp lines 80-81. The address lacks its opening quotation mark. -/
def doctypeLine : Str :=
  "<!DOCTYPE html PUBLIC \"-//W3C//DTD HTML 4.01//EN\" http://www.w3.org/TR/html4/strict.dtd\">\n".toList

/-- The start tag of the page, format_html.hpp line 82. -/
def headStart : Str := "<html lang=\"en\">".toList

/-- The line with the character set, format_html.hpp line 84. -/
def headMeta : Str := "<meta http-equiv=\"content-type\" content=\"text/html; charset=utf-8\">\n".toList

/-- The head of the page behind the first line, format_html.hpp lines 82-88. -/
def htmlHead (app : Str) (m : Meta) : Str :=
  headStart ++ "\n<head>\n".toList ++ headMeta
    ++ "<title>".toList ++ escapeXml app ++ " &mdash; ".toList ++ escapeXml m.shortDescription
    ++ "</title>\n</head>\n<body>\n".toList

/-- `print_header`, format_html.hpp lines 77-92. -/
def htmlHeader (ndebug : Bool) (appName : Str) (m : Meta) : HtmlM :=
  M.bind (htmlEmit (doctypeLine ++ htmlHead appName m)) fun _ =>
  M.bind (htmlEmit "<h1>".toList) fun _ =>
  M.bind (htmlText ndebug appName) fun _ =>
  M.bind (htmlEmit "</h1>\n<div>".toList) fun _ =>
  M.bind (htmlText ndebug m.shortDescription) fun _ =>
  htmlEmit "</div>\n".toList

/-- `print_section` and `print_subsection`, format_html.hpp lines 97-114; `tag` is `h2` or `h3`. -/
def htmlHeading (ndebug : Bool) (tag : Str) (title : Str) : HtmlM :=
  M.bind maybeCloseList fun _ =>
  M.bind maybeCloseParagraph fun _ =>
  M.bind (htmlEmit ("<".toList ++ tag ++ ">".toList)) fun _ =>
  M.bind (htmlText ndebug title) fun _ =>
  htmlEmit ("</".toList ++ tag ++ ">\n".toList)

/-- `print_line`, format_html.hpp lines 121-135. -/
def htmlLine (ndebug : Bool) (text : Str) (isParagraph : Bool) : HtmlM :=
  M.bind maybeCloseList fun _ =>
  M.bind (M.modify fun h => { h with out := h.out ++ (if h.isP then [] else "<p>\n".toList), isP := true }) fun _ =>
  M.bind (htmlText ndebug text) fun _ =>
  M.bind (htmlEmit "\n".toList) fun _ =>
  if isParagraph then maybeCloseParagraph else htmlEmit "<br>\n".toList

/-- `print_list_item`, format_html.hpp lines 146-158. -/
def htmlItem (ndebug : Bool) (term desc : Str) : HtmlM :=
  M.bind maybeCloseParagraph fun _ =>
  M.bind (M.modify fun h => { h with out := h.out ++ (if h.isDl then [] else "<dl>\n".toList), isDl := true }) fun _ =>
  M.bind (htmlEmit "<dt>".toList) fun _ =>
  M.bind (htmlText ndebug term) fun _ =>
  M.bind (htmlEmit "</dt>\n<dd>".toList) fun _ =>
  M.bind (htmlText ndebug desc) fun _ =>
  htmlEmit "</dd>\n".toList

/-- The print calls of `format_html`. -/
def htmlBlock (ndebug : Bool) : Block → HtmlM
  | .sec t => htmlHeading ndebug "h2".toList t
  | .subsec t => htmlHeading ndebug "h3".toList t
  | .line t p => htmlLine ndebug t p
  | .item k d => htmlItem ndebug k d

/-- `print_footer`, format_html.hpp lines 161-167: an open list would not be closed. -/
def htmlFooter : HtmlM :=
  M.bind maybeCloseParagraph fun _ =>
  htmlEmit "</body></html>".toList

/-- `format_html` as a printer; `in_bold` is format_html.hpp lines 237-240. -/
def htmlPrinter (ndebug : Bool) (appName : Str) (m : Meta) : Printer HtmlState where
  header := htmlHeader ndebug appName m
  block := htmlBlock ndebug
  footer := htmlFooter
  bold := fun s => "<strong>".toList ++ s ++ "</strong>".toList

end Sharg
