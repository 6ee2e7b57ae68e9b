# Compares the tables in lean/Verif/Model with the dictionaries in /repo, read as text.
import ast,re,os
R='/repo/metaknowledge/'
M='/verif/lean/Verif/Model/'
def lean(f): return open(M+f).read()
def chars(s): return ''.join(re.findall(r"'(\\?.)'",s))
def block(t,name):
    i=t.index('def '+name); j=t.find('\n\n',i); return t[i:j]
def lp(t,name):  # list of (chars, value)
    b=block(t,name)
    return b
# WOS kinds
src=open(R+'WOS/tagProcessing/tagFunctions.py').read(); tr=ast.parse(src)
fn={n.name:n for n in tr.body if isinstance(n,ast.FunctionDef)}
d=None
for n in tr.body:
    if isinstance(n,ast.Assign) and n.targets[0].id=='tagToFunc':
        n.value=n.value.args[0] if isinstance(n.value,ast.Call) else n.value
        if isinstance(n.value,ast.List): n.value=ast.Dict([e.elts[0] for e in n.value.elts],[e.elts[1] for e in n.value.elts])
        d={k.value:v.id for k,v in zip(n.value.keys,n.value.values)}
body={f:'; '.join(ast.unparse(x) for x in n.body if not (isinstance(x,ast.Expr) and isinstance(x.value,ast.Constant))) for f,n in fn.items()}
kinds=re.findall(r"\(\[('.', '.')\], \.(\w+)\)",block(lean('WosFields.lean'),'wosKinds'))
mk={chars(a):k for a,k in kinds}
print('WOS same keys/order',list(mk)==list(d), len(d))
bk={}
for t in d: bk.setdefault(mk[t],set()).add(body[d[t]])
for k,v in bk.items(): print('  ',k,v)
# names
tn=re.findall(r"\(\[((?:'.'(?:, )?)+)\], \[((?:'.'(?:, )?)+)\]\)",block(lean('TagNames.lean'),'wosTags'))
print('wosTags',{chars(a):chars(b) for a,b in tn}==d, [chars(a) for a,b in tn]==list(d))
# medline
src=open(R+'medline/tagProcessing/tagFunctions.py').read(); tr=ast.parse(src)
fn={n.name:n for n in tr.body if isinstance(n,ast.FunctionDef)}
for n in tr.body:
    if isinstance(n,ast.Assign) and n.targets[0].id=='medlineTagToFunc':
        n.value=n.value.args[0] if isinstance(n.value,ast.Call) else n.value
        if isinstance(n.value,ast.List): n.value=ast.Dict([e.elts[0] for e in n.value.elts],[e.elts[1] for e in n.value.elts])
        d=[(k.value,v.id) for k,v in zip(n.value.keys,n.value.values)]
body={f:'; '.join(ast.unparse(x) for x in n.body if not (isinstance(x,ast.Expr) and isinstance(x.value,ast.Constant))) for f,n in fn.items()}
kinds=re.findall(r"\(\[((?:'.'(?:, )?)+)\], \.(\w+)\)",block(lean('MedlineFields.lean'),'medlineKinds'))
mk=[(chars(a),k) for a,k in kinds]
print('medline keys',[a for a,_ in mk]==[a for a,_ in d],len(d),len(dict(d)))
bk={}
for (t,k),(t2,f) in zip(mk,d): bk.setdefault(k,set()).add(body[f])
for k,v in bk.items(): print('  ',k,v)
src=open(R+'medline/tagProcessing/tagNames.py').read(); tr=ast.parse(src)
for n in tr.body:
    if isinstance(n,ast.Assign) and isinstance(n.value,ast.Dict) and n.targets[0].id=='tagNameDict': d=[(k.value,v.value) for k,v in zip(n.value.keys,n.value.values)]
tn=re.findall(r"\(\[((?:'.'(?:, )?)+)\], \[((?:'.'(?:, )?)+)\]\)",block(lean('TagNames.lean'),'medlineLiteral'))
print('medlineLiteral',[(chars(a),chars(b)) for a,b in tn]==d,len(d))
# scopus
src=open(R+'scopus/tagProcessing/tagFunctions.py').read(); tr=ast.parse(src)
for n in tr.body:
    if isinstance(n,ast.Assign) and n.targets[0].id=='scopusTagToFunction':
        n.value=n.value.args[0] if isinstance(n.value,ast.Call) else n.value
        if isinstance(n.value,ast.List): n.value=ast.Dict([e.elts[0] for e in n.value.elts],[e.elts[1] for e in n.value.elts])
        d=[(k.value,ast.unparse(v)) for k,v in zip(n.value.keys,n.value.values)]
tn=re.findall(r'\("([^"]*)"\.toList, \.(\w+)\)',block(lean('OtherFields.lean'),'scopusKinds'))
print('scopus',[a for a,_ in tn]==[a for a,_ in d],len(d)); bk={}
for (a,k),(b,f) in zip(tn,d): bk.setdefault(k,set()).add(f)
print(bk)
# proquest
src=open(R+'proquest/tagProcessing/tagFunctions.py').read(); tr=ast.parse(src)
l=[e.value for e in tr.body[0].value.elts]
print('singleLine',re.findall(r'"([^"]*)"',block(lean('OtherFields.lean'),'singleLineEntries'))==l)
src=open(R+'constants.py').read(); 
for n in ast.parse(src).body:
    if isinstance(n,ast.Assign): print(ast.unparse(n)[:700])
print(re.findall(r'"([^"]*)"',block(lean('BibEntry.lean'),'commonRecordFields')))
for f in ['medline','scopus','proquest']:
    print(open(R+f+'/tagProcessing/specialFunctions.py').read()[-1500:])
