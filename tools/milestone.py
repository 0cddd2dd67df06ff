import json,sys
# usage: ms.py spec.py  with PROPS (text), NOTES dict, IMPORTS list
ns={}
exec(open(sys.argv[1]).read(),ns)
g='/verif/tools/gen_properties.py'
s=open(g).read()
if ns.get('PROPS'):
    k="\nwith open(os.path.join("
    assert s.count(k)==1
    s=s.replace(k,ns['PROPS'].rstrip()+"\n"+k)
    open(g,'w').write(s)
n='/verif/tools/notes.json'
d=json.load(open(n))
for k,v in ns.get('NOTES',{}).items(): d[k]={"note":v} if isinstance(v,str) else v
json.dump(d,open(n,'w'),indent=0,ensure_ascii=False)
v='/verif/lean/Verif.lean'
s=open(v).read()
for m in ns.get('IMPORTS',[]):
    if "import "+m+"\n" not in s: s=s.replace("import Verif.Audit","import "+m+"\nimport Verif.Audit")
open(v,'w').write(s)
