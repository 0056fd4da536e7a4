import Verif.Py.Basic

/-! # The style sheet of pages: /repo/style.css -/

namespace Verif

/-- A rule of a style sheet: its selectors, and its declarations. -/
abbrev StyleRule := List Str × List (Str × Str)

/-- The rules of style.css, in their order (style.css:20-158). Selectors are taken as texts; which rule wins if several set the same
property is left out. -/
def styleRules : List StyleRule := [
  ([py"body"],
    [(py"font-family", py"sans"),
     (py"font-size", py"11pt"),
     (py"text-align", py"center"),
     (py"line-height", py"1.5"),
     (py"background", py"#ddd"),
     (py"padding", py"0px"),
     (py"margin", py"0px")]),
  ([py"a"],
    [(py"color", py"#008")]),
  ([py"div"],
    [(py"margin", py"0px"),
     (py"padding", py"0px")]),
  ([py"blockquote"],
    [(py"margin", py"0px 0px 0px 00px"),
     (py"padding", py"0px")]),
  ([py".act_container"],
    [(py"max-width", py"950px"),
     (py"border", py"1px solid gray"),
     (py"display", py"inline-grid"),
     (py"background", py"white"),
     (py"padding", py"30px 80px 30px 80px"),
     (py"text-align", py"justify"),
     (py"box-shadow", py"5px 5px 10px #888888"),
     (py"grid-template-columns", py"70px 40px 30px 30px auto [end]"),
     (py"grid-gap", py"0px 0px"),
     (py"justify-items", py"stretch")]),
  ([py".act_title", py".preamble"],
    [(py"grid-column", py"1 / end"),
     (py"padding-bottom", py"2em")]),
  ([py".se_book", py".se_part", py".se_chapter", py".se_title", py".se_subtitle"],
    [(py"grid-column", py"3 / end"),
     (py"padding-bottom", py"2em")]),
  ([py".act_title"],
    [(py"font-size", py"18pt"),
     (py"font-weight", py"bold"),
     (py"margin", py"20px 20px 30px 0px")]),
  ([py".preamble"],
    [(py"margin-bottom", py"1.5em"),
     (py"text-align", py"justify")]),
  ([py".se_book"],
    [(py"font-size", py"16pt"),
     (py"font-weight", py"bold")]),
  ([py".se_part"],
    [(py"font-size", py"16pt")]),
  ([py".se_chapter", py".se_title"],
    [(py"font-size", py"14pt"),
     (py"font-style", py"italic")]),
  ([py".se_subtitle"],
    [(py"font-weight", py"bold")]),
  ([py".article_id"],
    [(py"grid-column", py"1"),
     (py"font-weight", py"bold")]),
  ([py".article_title"],
    [(py"grid-column", py"2 / end"),
     (py"font-style", py"italic"),
     (py"margin", py"0px 0px 0px 40px")]),
  ([py".space_after_article"],
    [(py"grid-column", py"1 / end"),
     (py"height", py"1.5em")]),
  ([py".paragraph_id"],
    [(py"grid-column", py"2")]),
  ([py".paragraph_text"],
    [(py"grid-column", py"3 / end")]),
  ([py".blockamendment_quote"],
    [(py"grid-column", py"3 / end")]),
  ([py".blockamendment_text"],
    [(py"grid-column", py"3 / end"),
     (py"font-style", py"italic")]),
  ([py".blockamendment_container"],
    [(py"display", py"inline-grid"),
     (py"grid-column", py"3 / end"),
     (py"grid-template-columns", py"70px 40px 30px 30px auto [end]"),
     (py"grid-gap", py"0px 0px"),
     (py"justify-items", py"stretch")]),
  ([py".numericpoint_id", py".alphabeticpoint_id"],
    [(py"grid-column", py"3")]),
  ([py".numericpoint_text", py".alphabeticpoint_text"],
    [(py"grid-column", py"4 / end")]),
  ([py".alphabeticsubpoint_id", py".numericsubpoint_id"],
    [(py"grid-column", py"4")]),
  ([py".alphabeticsubpoint_text", py".numericsubpoint_text"],
    [(py"grid-column", py"5 / end")]),
  ([py".quote_in_paragraph"],
    [(py"grid-column", py"3 / end"),
     (py"font-size", py"10pt")]),
  ([py":target"],
    [(py"background-color", py"#ffffc0")])]

end Verif
