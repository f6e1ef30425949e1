import Verif.Model.Tokenizer

/-!
# The project's tests of whole documents

The documents and assertions of `/repo/tests/test_html.py`, evaluated in the model. The documents are read from
their source text by the modelled tokenizer.
-/

namespace Verif.RepoTests

/-- `output.split('\n')[i]` -/
def line (o : Str) (i : Nat) : Str := (splitCh '\n' o).getD i []

/-- Render with the default configuration, and check the output. -/
def check (optimise : Bool) (html : Str) (p : Str → Bool) : Bool :=
  match renderHtml asciiUni { optimise } [html] with
  | .ok o => p o
  | .error _ => false

/-- `test_p_tag_default_short` -/
example : check true
    py"<p>Paragraph Text</p>"
    (fun o => endsWith o py"\n" && (splitCh '\n' o).length == 3 && strip (line o 1) == py"Paragraph Text" &&
      (line o 1).length == (strip (line o 1)).length && (line o 2) == []) = true := by decide +kernel

/-- `test_p_tag_default_long` -/
example : check false
    (py"<p>Paragraph Text Paragraph Text Paragraph Text Paragraph Text Paragraph Paragraph Text Paragraph Te" ++
     py"xt Paragraph Text Paragraph Text Paragraph Paragraph Text Paragraph Text Paragraph Text Paragraph Te" ++
     py"xt Paragraph Paragraph Text Paragraph Text Paragraph Text Paragraph Text Paragraph Paragraph Text Pa" ++
     py"ragraph Text Paragraph Text Paragraph Text Paragraph Paragraph Text Paragraph Text Paragraph Text Pa" ++
     py"ragraph Text Paragraph Text Paragraph Text Paragraph Text Paragraph Text</p>")
    (fun o => endsWith o py"\n" && (splitCh '\n' o).length == 10 &&
      (List.range' 1 8).all (fun i => (line o i).length == 67)) = true := by decide +kernel

/-- `test_br_tag_default` -/
example : check true
    py"<p>Paragraph<br>Text</p>"
    (fun o => endsWith o py"\n" && (splitCh '\n' o).length == 4 && strip (line o 1) == py"Paragraph" &&
      strip (line o 2) == py"Text" && (line o 1).length == (strip (line o 1)).length &&
      (line o 2).length == (strip (line o 2)).length) = true := by decide +kernel

/-- `test_closed_br_tag_default` -/
example : check true
    py"<p>Paragraph<br/>Text</p>"
    (fun o => endsWith o py"\n" && (splitCh '\n' o).length == 4 && strip (line o 1) == py"Paragraph" &&
      strip (line o 2) == py"Text" && (line o 1).length == (strip (line o 1)).length &&
      (line o 2).length == (strip (line o 2)).length) = true := by decide +kernel

/-- `test_h1_tag_default` -/
example : check false
    py"<h1>Seventh</h1>"
    (fun o => strip o == py"# Seventh #" && startsWith o py"\n" && endsWith o py"\n" &&
      o.length == 69) = true := by decide +kernel

/-- `test_h2_tag_default` -/
example : check false
    py"<h2>Seventh</h2>"
    (fun o => strip o == py"## Seventh ##" && startsWith o py"\n" && endsWith o py"\n" &&
      o.length == 69) = true := by decide +kernel

/-- `test_h3_tag_default` -/
example : check false
    py"<h3>Seventh</h3>"
    (fun o => strip o == py"### Seventh ###" && startsWith o py"\n" && endsWith o py"\n" &&
      o.length == 69) = true := by decide +kernel

/-- `test_h4_tag_default` -/
example : check false
    py"<h4>Seventh</h4>"
    (fun o => strip o == py"#### Seventh ####" && startsWith o py"\n" && endsWith o py"\n" &&
      o.length == 69) = true := by decide +kernel

/-- `test_h5_tag_default` -/
example : check false
    py"<h5>Seventh</h5>"
    (fun o => strip o == py"##### Seventh #####" && startsWith o py"\n" && endsWith o py"\n" &&
      o.length == 69) = true := by decide +kernel

/-- `test_h6_tag_default` -/
example : check false
    py"<h6>Seventh</h6>"
    (fun o => strip o == py"###### Seventh ######" && startsWith o py"\n" && endsWith o py"\n" &&
      o.length == 69) = true := by decide +kernel

/-- `test_code_span_default` -/
example : check true
    py"<code>ClassName</code>"
    (fun o => startsWith o py"`" && endsWith o py"`" && o.length == 11 &&
      (splitCh '\n' o).length == 1) = true := by decide +kernel

/-- `test_code_span_in_p_default` -/
example : check true
    py"<p>This paragrah includes a <code>ClassName</code> in a code tag.</p>"
    (fun o => strip o == py"This paragrah includes a `ClassName` in a code tag.") = true := by decide +kernel

/-- `test_code_block_default` -/
example : check true
    py"<pre><code>def func():\n    print('Some nonsense')\n    return True</code></pre>"
    (fun o => startsWith o py"\n" && endsWith o py"\n" && (splitCh '\n' o).length == 5 &&
      rstrip (line o 1) == py"    def func():" &&
      rstrip (line o 2) == py"        print('Some nonsense')") = true := by decide +kernel

/-- `test_blockquote_default` -/
example : check false
    py"<blockquote><p>One</p><p>Two</p></blockquote>"
    (fun o => startsWith o py"\n" && endsWith o py"\n" && (splitCh '\n' o).length == 5 &&
      (List.range' 1 3).all (fun i => startsWith (line o i) py"> " && (line o i).length == 67) &&
      strip (line o 2) == py">") = true := by decide +kernel

/-- `test_em_default` -/
example : check true
    py"<em>ClassName</em>"
    (fun o => startsWith o py"_" && endsWith o py"_" && o.length == 11 &&
      (splitCh '\n' o).length == 1) = true := by decide +kernel

/-- `test_strong_default` -/
example : check true
    py"<strong>ClassName</strong>"
    (fun o => startsWith o py"**" && endsWith o py"**" && o.length == 13 &&
      (splitCh '\n' o).length == 1) = true := by decide +kernel

/-- `test_u_default` -/
example : check true
    py"<u>ClassName</u>"
    (fun o => startsWith o py"_" && endsWith o py"_" && o.length == 11 &&
      (splitCh '\n' o).length == 1) = true := by decide +kernel

/-- `test_s_default` -/
example : check true
    py"<s>ClassName</s>"
    (fun o => startsWith o py"~~" && endsWith o py"~~" && o.length == 13 &&
      (splitCh '\n' o).length == 1) = true := by decide +kernel

/-- `test_ins_default` -/
example : check true
    py"<ins>ClassName</ins>"
    (fun o => startsWith o py"_" && endsWith o py"_" && o.length == 11 &&
      (splitCh '\n' o).length == 1) = true := by decide +kernel

/-- `test_del_default` -/
example : check true
    py"<del>ClassName</del>"
    (fun o => startsWith o py"~~" && endsWith o py"~~" && o.length == 13 &&
      (splitCh '\n' o).length == 1) = true := by decide +kernel

/-- `test_span_default` -/
example : check true
    py"<span>ClassName</span>"
    (fun o => startsWith o py"C" && endsWith o py"e" && o.length == 9 &&
      (splitCh '\n' o).length == 1) = true := by decide +kernel

/-- `test_div_default` -/
example : check false
    py"<div>ClassName</div>"
    (fun o => startsWith o py"C" && endsWith (strip o) py"e" && o.length == 67 &&
      (splitCh '\n' o).length == 1) = true := by decide +kernel

/-- `test_ul_default` -/
example : check false
    py"<ul><li>One</li><li>Two</li><li>Three</li></ul>"
    (fun o => startsWith o py"\n" && endsWith o py"\n" && (splitCh '\n' o).length == 5 &&
      (List.range' 1 3).all (fun i => startsWith (line o i) py"* " && (line o i).length == 67)) = true := by decide +kernel

/-- `test_ol_default` -/
example : check false
    py"<ol><li>One</li><li>Two</li><li>Three</li></ol>"
    (fun o => startsWith o py"\n" && endsWith o py"\n" && (splitCh '\n' o).length == 5 &&
      (List.range' 1 3).all (fun i => startsWith (line o i) (natStr i ++ py". ") && (line o i).length == 67)) = true := by decide +kernel

/-- `test_nested_lists_default` -/
example : check false
    py"<ol><li>One</li><li>Two<ul><li>Two Point One</li><li>Two Point Two</li></ul></li><li>Three</li></ol>"
    (fun o => startsWith o py"\n" && endsWith o py"\n" && (splitCh '\n' o).length == 7 &&
      (List.range' 1 2).all (fun i => startsWith (line o i) (natStr i ++ py". ") && (line o i).length == 67) &&
      (List.range' 3 2).all (fun i => startsWith (line o i) py"   * " && (line o i).length == 67) &&
      startsWith (line o 5) py"3. " && (line o 5).length == 67) = true := by decide +kernel

/-- `test_whitespace` -/
example : check true
    py"<p>  This \t\t\tparagraph  \n     has a \tbunch of\nwhitespace   in between    \nthe lines  </p>"
    (fun o => (splitCh '\n' o).length == 3 &&
      line o 1 == py"This paragraph has a bunch of whitespace in between the lines") = true := by decide +kernel

/-- `test_whitespace_around_tags` -/
example : check true
    py"<p>A first line,\nan <em>emphasised</em> second.\n<strong>Strong start </strong>to a third.\n</p>"
    (fun o => (splitCh '\n' o).length == 3 &&
      line o 1 == py"A first line, an _emphasised_ second.  **Strong start **to a third.") = true := by decide +kernel

/-- `test_dl_default` -/
example : check false
    (py"<dl><dt>One</dt><dd>Definition One</dd><dt>Two</dt><dd>Definition Two One</dd><dd>Definition Two Two" ++
     py"</dd></dl>")
    (fun o => startsWith o py"\n" && endsWith o py"\n" && (splitCh '\n' o).length == 8 &&
      startsWith (line o 2) py": " &&
      (List.range' 5 2).all (fun i => startsWith (line o i) py": " && (line o i).length == 67) &&
      (List.range' 1 6).all (fun i => (line o i).length == 67)) = true := by decide +kernel

end Verif.RepoTests
