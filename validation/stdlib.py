#!/usr/bin/env python3
"""Compare the model of the Python standard library with the standard library itself, on random inputs.

Usage, after `lake build` in ../lean:  python3.12 stdlib.py [number of inputs] [seed]

Only modules of the standard library run here (str, re, textwrap, urllib.parse, pathlib, html); the project does not. A
network location in brackets is skipped: the model leaves open which of them are valid (`Uni.netlocOk`). The table of named
character references is cut down to the one of `asciiUni`.
"""
import collections, html, html.parser, json, os, pathlib, random, re, subprocess, sys, tempfile, textwrap, urllib.parse

N = int(sys.argv[1]) if len(sys.argv) > 1 else 50000
R = random.Random(int(sys.argv[2]) if len(sys.argv) > 2 else 1)

DRIVER = r"""
import Lean.Data.Json
import Verif.Model.Parser
import Verif.Model.Cli
import Verif.Model.Tokenizer
open Lean Verif

def ofS (s : String) : Str := s.toList
def toS (s : Str) : Json := Json.str (String.ofList s)
def errJ : PyErr → Json
  | .attributeError => "!AttributeError" | .valueError => "!ValueError" | .indexError => "!IndexError"
  | .keyError => "!KeyError" | .typeError => "!TypeError" | .nameError => "!NameError" | .selectorSyntax => "!SelectorSyntaxError" | .diverge => "!diverge"
  | .assertionError => "!AssertionError" | .recursion => "!recursion" | .unsupported => "!unsupported"
def pyJ {α} (f : α → Json) : Py α → Json
  | .ok a => f a
  | .error e => errJ e
def lst (l : List Str) : Json := Json.arr (l.map toS).toArray
def gs (j : Json) (k : String) : Str := match j.getObjVal? k with | .ok (.str s) => ofS s | _ => []
def gi (j : Json) (k : String) (d : Int := 0) : Int := match j.getObjVal? k with | .ok v => (match v.getInt? with | .ok i => i | _ => d) | _ => d
def gb (j : Json) (k : String) (d : Bool := false) : Bool := match j.getObjVal? k with | .ok (.bool b) => b | _ => d
def gch (j : Json) : Char := (gs j "c").headD ' '
def optJ {α} (f : α → Json) : Option α → Json | none => Json.null | some a => f a
def intJ (i : Int) : Json := toJson i
def tri (t : Str × Bool × Str) : Json := Json.arr #[toS t.1, Json.bool t.2.1, toS t.2.2]

def opts (j : Json) : WrapOpts :=
  { width := gi j "width" 70, initialIndent := gs j "initial_indent", subsequentIndent := gs j "subsequent_indent"
    expandTabs := gb j "expand_tabs" true, replaceWs := gb j "replace_whitespace" true
    fixSentence := gb j "fix_sentence_endings", breakLong := gb j "break_long_words" true
    dropWs := gb j "drop_whitespace" true, breakHyphens := gb j "break_on_hyphens" true
    tabsize := gi j "tabsize" 8, maxLines := (match j.getObjVal? "max_lines" with | .ok .null => none | .ok v => (match v.getInt? with | .ok i => some i | _ => none) | _ => none)
    placeholder := gs j "placeholder", hyphenAware := true }

def attrJ (a : Str × Option Str) : Json := Json.arr #[toS a.1, optJ toS a.2]
def evJ : Event → Json
  | .start t as => Json.arr #["start", toS t, Json.arr (as.map attrJ).toArray]
  | .stop t => Json.arr #["stop", toS t]
  | .data t => Json.arr #["data", toS t]

def feedAll (s : TokState) : List Str → List Event × Py TokState
  | [] => tokClose asciiUni s
  | p :: ps => let r := tokFeed asciiUni s p
    match r.2 with
    | .ok s' => emit (r.1 ++ [.data (ofS "|")]) (feedAll s' ps)
    | .error e => (r.1, .error e)

def strs (j : Json) (k : String) : List Str :=
  match j.getObjVal? k with
  | .ok (.arr a) => a.toList.map (fun x => match x with | .str s => ofS s | _ => [])
  | _ => []

def run (j : Json) : Json :=
  let s := gs j "s"
  match String.ofList (gs j "op") with
  | "strip" => lst [strip s, lstrip s, rstrip s]
  | "split" => lst (splitCh (gch j) s)
  | "splitws" => lst (splitWs s)
  | "lines" => Json.arr #[lst (splitlines s), lst (splitlinesKeep s)]
  | "slice" => lst [pyTake s (gi j "k"), pyDrop s (gi j "k")]
  | "rfind" => intJ (rfindCh (gch j) s)
  | "part" => Json.arr #[tri (partition (gch j) s), tri (rpartition (gch j) s)]
  | "center" => lst [centerStr s (gi j "k"), rjust s (gi j "k")]
  | "tabs" => toS (expandtabs (gi j "k") s)
  | "int" => optJ intJ (pyInt (gi j "k").toNat s)
  | "contains" => Json.bool (contains (gs j "p") s)
  | "fmt" => pyJ toS (pyFormat s [.str (ofS "A{}c"), .int 42, .int (-7), .none, .str (ofS ">8")]
      [(ofS "x", .str (ofS "X")), (ofS "y", .str (ofS "{0}")), (ofS "n", .int 5), (ofS "o", .none)])
  | "wrap" => pyJ lst (wrap asciiUni (opts j) s)
  | "url" => pyJ (fun (p : Url) => Json.arr #[toS p.scheme, toS p.netloc, toS p.path, optJ toS (hostname asciiUni p.netloc), pyJ (optJ intJ) (port p.netloc)]) (urlparse asciiUni s)
  | "path" => lst [pathName s, pathSuffix s]
  | "ansi" => toS (stripAnsi asciiUni s)
  | "data" => toS (collapse false s)
  | "unescape" => toS (unescape asciiUni s)
  | "html" => let r := feedAll {} (strs j "p")
    Json.arr #[Json.arr (r.1.map evJ).toArray, pyJ (fun s => Json.arr #[toS s.raw, optJ toS s.cdata]) r.2]
  | _ => "?"

def main : IO Unit := do
  let inp ← IO.getStdin
  let out ← IO.getStdout
  repeat
    let l ← inp.getLine
    if l.isEmpty then break
    match Json.parse l with
    | .ok j => out.putStrLn (run j).compress
    | .error e => out.putStrLn ("PARSE " ++ e)
"""

WS=" \t\n\r\x0b\x0c\x1c\x1e\x85  　"
def text(alpha,n): return ''.join(R.choice(alpha) for _ in range(R.randint(0,n)))
A="aaaabcXY. ,-- --'\"?!12_  \t\n"
html._html5 = {'amp;': '&', 'amp': '&', 'lt;': '<', 'lt': '<', 'gt;': '>', 'gt': '>', 'quot;': '"', 'quot': '"',
               'not;': '\xac', 'not': '\xac', 'notin;': '\u2209'}
class Tokens(html.parser.HTMLParser):
    def __init__(self): super().__init__(convert_charrefs=True); self.out=[]
    def handle_starttag(self,t,a): self.out.append(['start',t,a])
    def handle_endtag(self,t): self.out.append(['stop',t])
    def handle_data(self,d): self.out.append(['data',d])
def tokens(pieces):
    t=Tokens()
    try:
        for p in pieces:
            t.feed(p); t.out.append(['data','|'])
        t.close()
    except AssertionError: return [t.out,'!AssertionError']
    return [t.out,[t.rawdata,t.cdata_elem]]
TOK=['<','<','>','>','</','/','<!','<!--','-->','--','-','<?','<![','<![CDATA[',']]>',']','cdata','if','!','=','=','==','"',"'",' ',' ','\n','\t','\x0b','\x00',
     'a','b','A','p','x1','script','SCRIPT','style','<script>','</script>','</ſcrıpt>','</style >','<a ','<p>','</p>','<br/>','<!DOCTYPE html>','&','&amp;','&lt','&#','&#x','3','4','f',';','&not','in;','href=','"q"',"'r'",'text','é']
def spec():
    s=''
    if R.random()<.5: s+=R.choice(['','*','0','x','<','{','é'])+R.choice('<>=^')
    if R.random()<.2: s+=R.choice('+- ')
    if R.random()<.05: s+='z'
    if R.random()<.05: s+='#'
    if R.random()<.2: s+='0'
    if R.random()<.5: s+=str(R.randint(0,15))
    if R.random()<.05: s+=R.choice(',_')
    if R.random()<.05: s+=R.choice(',_')
    if R.random()<.3: s+='.'+R.choice(['','0','1','2','7'])
    if R.random()<.3: s+=R.choice('sdsdxqbn_')
    if R.random()<.1: s+=R.choice('sd1')
    if R.random()<.01: s+=str(10**R.randint(19,25))+'.3'
    return s
def field(d=0):
    n=R.choice(['','','0','1','2','3','4','5','00','01','x','y','n','o','z','-1',' x','9223372036854775807','9223372036854775808'])
    if R.random()<.15: n+=R.choice(['[0]','[1]','[9]','[a]','[','[]','[0]a','[0][0]','.','.x','[}]','[:','[-1]','[{0}]','[9223372036854775808]'])
    if R.random()<.15: n+='!'+R.choice(['s','s','r','a','q','','s}','sx',':'])
    if R.random()<.6:
        n+=':'
        if d<3 and R.random()<.35:
            for _ in range(R.randint(0,2)): n+=R.choice([spec(),'']); n+=field(d+1)
            n+=R.choice(['','.2','s'])
        else: n+=spec()
    return '{'+n+'}'
def template():
    s=''
    for _ in range(R.randint(1,4)):
        s+=R.choice([field(),field(),'a','{{','}}','b','{','}'] if R.random()<.3 else [field(),'a','-'])
    if R.random()<.1:
        i=R.randint(0,len(s)); s=s[:i]+R.choice('{}[]!:.0x')+s[i:]
    return s
def py(j):
    op=j['op'];s=j.get('s','')
    try:
        if op=='strip': return [s.strip(),s.lstrip(),s.rstrip()]
        if op=='split': return s.split(j['c'])
        if op=='splitws': return s.split()
        if op=='lines': return [s.splitlines(),s.splitlines(True)]
        if op=='slice': return [s[:j['k']],s[j['k']:]]
        if op=='rfind': return s.rfind(j['c'])
        if op=='part':
            a=s.partition(j['c']);b=s.rpartition(j['c'])
            return [[a[0],a[1]!='',a[2]],[b[0],b[1]!='',b[2]]]
        if op=='center': return [s.center(j['k']),s.rjust(j['k'])]
        if op=='tabs': return s.expandtabs(j['k'])
        if op=='int':
            try: return int(s,j['k'])
            except ValueError: return None
        if op=='contains': return j['p'] in s
        if op=='fmt': return s.format("A{}c",42,-7,None,">8",x="X",y="{0}",n=5,o=None)
        if op=='wrap':
            k={x:j[x] for x in j if x not in('op','s')}
            return textwrap.wrap(s,**k)
        if op=='url':
            p=urllib.parse.urlparse(s)
            try: port=p.port
            except ValueError: port="!ValueError"
            return [p.scheme,p.netloc,p.path,p.hostname,port]
        if op=='path':
            p=pathlib.PurePosixPath(s); return [p.name,p.suffix]
        if op=='ansi': return re.sub(r"\x1b\[[;\d]*m","",s)
        if op=='unescape': return html.unescape(s)
        if op=='html': return tokens(j['p'])
        if op=='data': return re.sub('[ \t]+',' ',s)
    except Exception as e: return '!'+type(e).__name__
def gen():
    op=R.choice(['strip','split','splitws','lines','slice','rfind','part','center','tabs','int','contains','fmt','wrap','wrap','wrap','wrap','url','url','path','ansi','data','unescape','html','html','html','html'])
    j={'op':op}
    if op in('strip','splitws','lines'): j['s']=text("ab"+WS,12)
    elif op in('split','rfind','part'): j['s']=text("ab./\n",10); j['c']=R.choice("./a\n")
    elif op in('slice','center'): j['s']=text("abc ",9); j['k']=R.randint(-12,14)
    elif op=='tabs': j['s']=text("ab\t\n\r",14); j['k']=R.randint(-1,9)
    elif op=='int': j['s']=text("0012abfFxX_+- g",7); j['k']=R.choice([10,16])
    elif op=='contains': j['s']=text("ab",8); j['p']=text("ab",3)
    elif op=='fmt': j['s']=text("{{}}}{xy01ab",9) if R.random()<.3 else template()
    elif op=='wrap':
        j['s']=text(R.choice([A,"ab -","aB.'\" !?1--_x","abcdefgh  -\t"]),R.choice([8,30,80]))
        j['width']=R.randint(-1,20)
        j['initial_indent']=' '*R.randint(0,3); j['subsequent_indent']=R.choice(['','','  ','> '])
        for k in['expand_tabs','replace_whitespace','fix_sentence_endings','break_long_words','drop_whitespace','break_on_hyphens']: j[k]=R.random()<.6
        j['tabsize']=R.randint(0,8)
        if R.random()<.3: j['max_lines']=R.randint(1,4)
        else: j['max_lines']=None
        j['placeholder']=R.choice([' [...]','...',' ~'])
        if j['width']<=len(j['subsequent_indent']) or j['width']<=len(j['initial_indent']):
            if j['width']>0: j['width']+=3
    elif op=='url': j['s']=R.choice(['','http://','gopher://','HTTP:','mailto:','//','ftp://',' http://','a+b:','1a:'])+text("ab.:/?#;@[]%Z8 \t1-",14)
    elif op=='path': j['s']=text("ab./.",9)
    elif op=='ansi': j['s']=text("\x1b\x1b[[;1mma",12)
    elif op=='unescape': j['s']=''.join(R.choice(['&','#','x','X','3','8','f','0',';','amp','lt','not','notin','in','a',' ','&#x27;','&#13','&#128;','&#xD800;','&#1114112','&#11','<']) for _ in range(R.randint(0,9)))
    elif op=='html':
        s=''.join(R.choice(TOK) for _ in range(R.choice([3,6,12,25])))
        if R.random()<.5: j['p']=[s]
        else:
            i=R.randint(0,len(s)); k=R.randint(i,len(s)); j['p']=[s[:i],s[i:k],s[k:]]
    elif op=='data': j['s']=text("a \t\n",12)
    return j


def main():
    here = os.path.dirname(os.path.abspath(__file__))
    inputs = [gen() for _ in range(N)]
    with tempfile.TemporaryDirectory() as tmp:
        driver = os.path.join(tmp, 'Driver.lean')
        open(driver, 'w').write(DRIVER)
        r = subprocess.run(['lake', 'env', 'lean', '--run', driver], cwd=os.path.join(here, '..', 'lean'),
                           input=''.join(json.dumps(i) + '\n' for i in inputs), text=True, capture_output=True, check=True)
    count, bad = collections.Counter(), 0
    for i, line in zip(inputs, r.stdout.split('\n')[:-1], strict=True):
        model, python = json.loads(line), json.loads(json.dumps(py(i)))
        if model == '!unsupported' or i['op'] == 'url' and '[' in i['s'] and python == '!ValueError':
            count['skipped'] += 1
            continue
        count[i['op']] += 1
        if model != python:
            bad += 1
            print('DIFFERENT', i, 'python', python, 'model', model)
    print(dict(count), 'different:', bad)
    return bad != 0


if __name__ == '__main__':
    sys.exit(main())
