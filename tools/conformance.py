# Conformance check: python3 tools/conformance.py /tmp/tests.lean; cd lean; lake env lean --run /tmp/tests.lean
# Runs the inputs of the unit tests of /repo/src/parser/tests through the model and compares node kinds with the asserts.
import re,os,sys
D='/repo/src/parser/tests/'
out=[]
def unescape(s):
    s=re.sub(r'\\\n\s*','',s)
    return s.replace('\\n','\n').replace('\\"','"').replace('\\t','\t').replace('\\\\','\\')
for f in sorted(os.listdir(D)):
    t=open(D+f).read()
    for m in re.finditer(r'#\[test\]\s*fn (\w+)\s*\(\)\s*\{(.*?)\n\}\n',t+'\n',re.S):
        name,body=m.groups()
        if 'Parser::new' not in body: continue
        s=re.search(r'r(#+)"(.*?)"\1',body,re.S)
        s2=re.search(r'r"(.*?)"',body,re.S)
        s3=re.search(r'=\s*"((?:[^"\\]|\\.)*)"',body,re.S)
        cands=[]
        if s: cands.append((s.start(),s.group(2)))
        if s2: cands.append((s2.start(),s2.group(1)))
        if s3: cands.append((s3.start(),unescape(s3.group(1))))
        if not cands: print('NOSRC',f,name,file=sys.stderr); continue
        src=min(cands)[1]
        exps=[]
        for e in re.finditer(r'doctree((?:\s*\.shared_child\((\d+)\)\.unwrap\(\))*)\s*\.shared_(?:node_)?data\(\)\s*\{(?:\s*//[^\n]*)?\s*TreeNodeType::(\w+)',body):
            path=[int(x) for x in re.findall(r'shared_child\((\d+)\)',e.group(1))]
            exps.append((path,e.group(3)))
        out.append((name,src,exps))
def lstr(s):
    return '"'+s.replace('\\','\\\\').replace('"','\\"').replace('\n','\\n').replace('\t','\\t')+'"'
with open(sys.argv[1],'w') as g:
    g.write('''import Verif.Model.Parser
open Rustla
def childAt : TreeNode → List Nat → Option TreeNode
  | n, [] => some n
  | n, i :: is => match n.children with
    | some cs => match cs[i]? with
      | some c => childAt c is
      | none => none
    | none => none
partial def showT (ind : String) (n : TreeNode) : String :=
  ind ++ reprStr n.data.kind ++ "\\n" ++ String.join ((n.children.getD []).map (showT (ind ++ "  ")))
def root (d : DocTree) : Option TreeNode := match d.walkToRoot with
  | .ok d => some d.tree.node
  | .error _ => none
def runOne (name src : String) (exps : List (List Nat × String)) : IO Unit := do
  let r := parseDocument 400 (str! "test") [] (strLines src.toList)
  match r with
  | .error p => IO.println s!"{name}: PANIC {reprStr p}"
  | .ok r =>
    let (tag, d) := match r with
      | .eof d _ => ("", d)
      | .emptyStateStack d _ => ("EMPTY", d)
      | .failure d => ("FAILURE", d)
    match root d with
    | none => IO.println s!"{name}: no root"
    | some t =>
      let bad := exps.filter fun e => match childAt t e.1 with
        | some n => reprStr n.data.kind != "Rustla.Kind." ++ e.2
        | none => true
      IO.println s!"{name}: {tag} {exps.length} checks, {bad.length} bad"
      if !bad.isEmpty || tag != "" then
        IO.println (toString bad)
        IO.println (showT "  " t)
def main : IO Unit := do
''')
    for n,s,e in out:
        g.write('  runOne %s %s [%s]\n'%(lstr(n),lstr(s),', '.join('([%s], %s)'%(', '.join(map(str,p)),lstr(k)) for p,k in e)))
