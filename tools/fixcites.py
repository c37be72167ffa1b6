#!/usr/bin/env python3
"""Rewrite the line ranges of citations of the form `name`, file.c:a-b in the Lean model to the actual range of function
`name` in /repo (the function's first line up to its closing brace)."""
import re,glob,os
src={}
for d in ('container','algorithm','prime'):
    for f in glob.glob(f'/repo/{d}/*.c'):
        src[os.path.basename(f)]=open(f).read().split('\n')
def rng(file,name):
    L=src[file]
    for i,l in enumerate(L):
        if re.search(r'(?<![\w])'+re.escape(name)+r'\s*\(',l) and not l.startswith((' ','\t','#','/')) and not l.rstrip().endswith(';'):
            j=i
            while j<len(L) and not L[j].startswith('}'):
                if L[j].rstrip().endswith(';') and not L[j].startswith((' ','\t')) : break
                j+=1
            if j<len(L) and L[j].startswith('}'): return i+1,j+1
    return None
n=0;miss=[]
for f in glob.glob('/verif/lean/Verif/**/*.lean',recursive=True):
    s=open(f).read()
    def rep(m):
        global n
        name,file=m.group(1),m.group(2)
        if file not in src: return m.group(0)
        r=rng(file,name)
        if not r: miss.append((f,name,file)); return m.group(0)
        new=f'`{name}`, {file}:{r[0]}-{r[1]}'
        if new!=m.group(0): n+=1
        return new
    t=re.sub(r'(?<=/-- )`(\w+)`, (\w+\.c):(\d+)(?:-(\d+))?',rep,s)
    def rep2(m):
        global n
        pre,file,a,b,post=m.group(1),m.group(2),int(m.group(3)),int(m.group(4)),m.group(5)
        if file not in src: return m.group(0)
        def loop(a,b):
            L=src[file]
            c=[i+1 for i,l in enumerate(L) if re.match(r'\s+(while|do|for)\b',l) and abs(i+1-a)<=4]
            if not c: return None
            a2=min(c,key=lambda x:abs(x-a)); ind=len(L[a2-1])-len(L[a2-1].lstrip())
            j=a2
            while not (L[j].startswith(' '*ind+'}') ): j+=1
            return a2,j+1
        r=loop(a,b)
        if r is None: miss.append((f,m.group(0)[:40])); return m.group(0)
        def par(mm):
            q=loop(int(mm.group(1)),int(mm.group(2)))
            return f'({q[0]}-{q[1]})' if q else mm.group(0)
        return f'{pre}{file}:{r[0]}-{r[1]}'+re.sub(r'\((\d+)-(\d+)\)',par,post)
    t=re.sub(r'(/-- (?:The |the )?(?:inner |outer )?loop (?:(?!-/).)*?`\w+`, )(c_(?:non_modifying|modifying|heap|sorting|bsearch|min_max|partitioning|set_op)\.c):(\d+)-(\d+)((?:(?!-/).)*-/)',rep2,t,flags=re.S)
    if t!=s: open(f,'w').write(t)
print(n,'citations fixed; not found:',miss)
